import Verif.Proofs.Safe

/-!
# The server methods, run interleaved with others
-/

set_option linter.unusedSectionVars false
set_option linter.unusedVariables false

namespace Trypo
open GoFloat Spec

variable {F : Type} [GoFloat F]

namespace Manager

/-- Why a live datapoint is refused. -/
theorem wp_addDataPoint_refused {tk : Nat → Int} (hm : MonoClock tk) {cm : Manager F} (hw : cm.WF) (d : DataPoint F) (p : Nat) :
    Go.wp (cm.addDataPoint tk d) (fun r p' => r.1 = false → ¬ Dead (tk p') d → cm.centroids ≠ [] ∧
      (cm.knn d.vec cm.centroidVecs 1 = .ok [] ∨ d.vec.length ≠ cm.vec.length)) p := by
  have h0 := wp_addDataPoint hm hw d p
  refine Go.wp_mono (Go.wp_and h0 (R := fun r p' => r.1 = false → ¬ Dead (tk p') d → cm.centroids ≠ [] →
    (cm.knn d.vec cm.centroidVecs 1 = .ok [] ∨ d.vec.length ≠ cm.vec.length)) ?_) (fun r p' hr hf hd => ?_)
  · unfold addDataPoint
    simp only [Go.wp_bind, DataPoint.wp_expired, Go.wp_ite]
    refine ⟨fun he => ?_, fun he => ⟨fun h0 => ?_, fun h0 => ?_⟩⟩
    · rw [Go.wp_pure]
      intro _ hd
      exact absurd (((expiredAt_iff _ _).1 he).mono hm (by omega)) hd
    · have h0' : cm.centroids = [] := List.length_eq_zero_iff.1 h0
      unfold newCentroid Centroid.new
      simp only [Go.wp_bind, Go.wp_checkMake, Go.wp_pure, Centroid.wp_addDataPoint]
      refine ⟨hw.cap, ?_⟩
      rw [if_neg (by simp)]
      split <;> (intro h; simp at h)
    · obtain ⟨is, h1, h2, h3, h4⟩ := hw.good.1 d.vec cm.centroidVecs 1 (by omega)
      simp only [Go.wp_lift]
      refine ⟨is, h1, ?_⟩
      cases is with
      | nil => simp only [Go.wp_pure]; exact fun _ _ _ => .inl h1
      | cons j js =>
        have hj : j < cm.centroids.length := by
          have := h3 j (by simp); rwa [centroidVecs, List.length_map] at this
        simp only [Go.wp_bind, Go.wp_idx]
        have hc : cm.centroids[j]? = some cm.centroids[j] := List.getElem?_eq_getElem hj
        generalize cm.centroids[j] = c at hc
        refine ⟨c, hc, ?_⟩
        rw [Centroid.wp_addDataPoint]
        split
        · rename_i hl
          simp only [Bool.not_false, if_true, Go.wp_pure]
          intro _ _ _
          exact .inr (by rw [← (hw.dim c (List.mem_of_getElem? hc)).1]; exact hl)
        · rename_i hl
          split
          · rename_i he2
            simp only [Bool.not_false, if_true, Go.wp_pure]
            intro _ hd
            exact absurd (((expiredAt_iff _ _).1 he2).mono hm (by omega)) hd
          · simp only [Bool.not_true, Bool.false_eq_true, if_false, Go.wp_ite]
            refine ⟨fun ht => ?_, fun ht => by rw [Go.wp_pure]; simp⟩
            change Go.wp (do
              let s ← (cm.upd j c.vec (c.addRaw d)).splitCentroid tk j (cm.threshold.tdiv 2)
              match s.1 with
              | some nc => pure (true, { s.2 with centroids := s.2.centroids ++ [nc] })
              | none => pure (true, s.2)) _ _
            have hl : d.vec.length = c.vec.length := by simpa using hl
            have hget : (cm.upd j c.vec (c.addRaw d)).centroids[j]? = some (c.addRaw d) := by
              rw [upd_centroids, List.getElem?_set_self hj]
            have hdim := (hw.dim c (List.mem_of_getElem? hc)).2
            have hwu : (cm.upd j c.vec (c.addRaw d)).WF :=
              hw.upd hc ⟨rfl, rfl⟩ ⟨Centroid.addRaw_vec_length hl, Centroid.addRaw_dimOK hl hdim⟩
            rw [Go.wp_bind]
            by_cases hdiv : 0 < cm.threshold.tdiv 2
            · refine Go.wp_mono (wp_splitCentroid hwu hget hdiv (p + 1 + 1)) (fun s p' hs => ?_)
              obtain ⟨c', nc, hs1, hs2⟩ := hs
              simp only [hs1, Go.wp_pure]
              simp
            · rw [splitCentroid_none (by omega)]
              simp only [Go.wp_pure]
              simp
  · have hne : cm.centroids ≠ [] := by
      intro hc
      have := hr.1.2.2.2.2 (fun hdd => hd (hdd.mono hm hr.1.1)) hc
      rw [hf] at this; simp at this
    exact ⟨hne, hr.2 hf hd hne⟩

end Manager

theorem MOK.of_eff {tk : Nat → Int} {p p' n : Nat} {m m' : Manager F} {acc out : List (DataPoint F)} (h : MOK n m)
    (he : Manager.Eff tk p p' m m' acc out) (hacc : ∀ d ∈ acc, d.vec.length = n) : MOK n m' :=
  ⟨he.wf, by rw [he.same.knn, h.knn], by rw [he.same.kfn, h.kfn],
    by rw [he.len (fun d hd => by rw [hacc d hd, h.len]), h.len]⟩

/-- Slots can be created at `a` without breaking the invariant of the tables, or need not be created there. -/
def Ctx.Open (c : Ctx F) (a : Addr) : Prop :=
  (∀ w m, c.Inv w → c.T (w.addSlot a c.own m).table (labels w ++ [c.own])) ∨ (∀ w, c.Inv w → w.lookup a c.own ≠ none)

section
variable [LawfulCmp F] {c : Ctx F} {α β : Type}

/-- An access: `f` may take `acc` from what is held and add `out` to it. -/
theorem safe_access {a : Addr} {f : Manager F → Go (β × Manager F)} {L : View} {H : List (DataPoint F)} {M : List (Entry F)}
    {Q : Option β → View → List (DataPoint F) → List (Entry F) → Prop}
    (h : ∀ m p, MOK (c.D c.own) m → (∀ d, TurnsAway m d → c.R d) → Go.wp (f m) (fun r p' => p ≤ p' ∧ MOK (c.D c.own) r.2 ∧
      ∃ H', Conserved (c.env.tk p') (H ++ stored m) (H' ++ stored r.2) [] ∧ ∀ L', L.Le L' → L'.has a c.own → Q (some r.1) L' H' M) p)
    (hnone : ∀ w, c.Inv w → L.Le (view w) → w.lookup a c.own = none → Q none (view w) H M) :
    Safe c (Server.access a c.own f) L H M Q := by
  unfold Server.access
  refine safe_bind (safe_lookup (fun w hi hl hlab => ?_))
  cases hlk : w.lookup a c.own with
  | none => exact hnone w hi hl hlk
  | some i =>
    refine safe_bind (safe_slot (hlab i hlk) (fun m p hm hr => ?_))
    refine Go.wp_mono (h m p hm hr) (fun r p' hr => ?_)
    obtain ⟨h1, h2, H', h3, h4⟩ := hr
    exact ⟨h1, h2, H', h3, fun L' hL' => h4 L' (hl.trans hL') (hL'.has _ _ (by show w.lookup a c.own ≠ none; rw [hlk]; simp))⟩

/-- An access whose effect on the manager is known. -/
theorem safe_access_eff {a : Addr} {f : Manager F → Go (β × Manager F)} {out : β → List (DataPoint F)} {R : β → Prop}
    {L : View} {H : List (DataPoint F)} {M : List (Entry F)}
    {Q : Option β → View → List (DataPoint F) → List (Entry F) → Prop}
    (h : ∀ m p, MOK (c.D c.own) m → Go.wp (f m) (fun r p' => Manager.Eff c.env.tk p p' m r.2 [] (out r.1) ∧ R r.1) p)
    (hsome : ∀ b L', L.Le L' → L'.has a c.own → R b → Q (some b) L' (out b ++ H) M)
    (hnone : ∀ L', L.Le L' → Q none L' H M) :
    Safe c (Server.access a c.own f) L H M Q := by
  refine safe_access (fun m p hm _ => ?_) (fun w _ hl _ => hnone _ hl)
  refine Go.wp_mono (h m p hm) (fun r p' hr => ?_)
  obtain ⟨he, hR⟩ := hr
  refine ⟨he.le, hm.of_eff he (by simp), out r.1 ++ H, ?_, fun L' hL' hh => hsome _ _ hL' hh hR⟩
  obtain ⟨lost, e1, e2⟩ := he.conserved
  refine ⟨lost, ?_, e2⟩
  have e1' : (stored r.2 ++ out r.1 ++ lost).Perm ([] ++ stored m) := e1
  permc [e1']

/-- An access that does not change what is stored. -/
theorem safe_access_read {a : Addr} {f : Manager F → β} {L : View} {H : List (DataPoint F)} {M : List (Entry F)}
    {Q : Option β → View → List (DataPoint F) → List (Entry F) → Prop}
    (hsome : ∀ m L', MOK (c.D c.own) m → L.Le L' → L'.has a c.own → Q (some (f m)) L' H M)
    (hnone : ∀ L', L.Le L' → Q none L' H M) :
    Safe c (Server.access a c.own (fun m => pure (f m, m))) L H M Q := by
  refine safe_access (fun m p hm _ => ?_) (fun w _ hl _ => hnone _ hl)
  rw [Go.wp_pure]
  exact ⟨Nat.le_refl _, hm, H, Conserved.refl _ _, fun L' hL' hh => hsome m L' hm hL' hh⟩

theorem turnsAway_of_knn {m : Manager F} {d : DataPoint F} (hne : m.centroids ≠ []) (hl : ∀ x ∈ m.centroids, x.vec.length = d.vec.length)
    (h : knnCos d.vec m.centroidVecs 1 = .ok []) : TurnsAway m d := by
  obtain ⟨r, h1, h2⟩ := knnBrute_kbest d.vec cosineSimilarity false 1 m.centroidVecs
  have hr : r = [] := by
    have : knnCos d.vec m.centroidVecs 1 = .ok r := h1
    rw [h] at this; cases this; rfl
  subst hr
  have h3 := h2.length
  have h4 : m.centroidVecs.countP (isCandidate (cosineSimilarity d.vec) false) = 0 := by simp at h3; omega
  refine ⟨hne, fun x hx => ⟨hl x hx, fun s hs hc => ?_⟩⟩
  have := List.countP_eq_zero.1 h4 x.vec (List.mem_map_of_mem hx)
  unfold isCandidate at this
  rw [hs] at this
  simp [hc] at this

theorem _root_.Trypo.Spec.AlwaysFinds.not_turnsAway (hf : AlwaysFinds (knnCos (F := F))) {m : Manager F} {d : DataPoint F} : ¬ TurnsAway m d := by
  rintro ⟨h1, h2⟩
  obtain ⟨j, js, hj⟩ := hf d.vec m.centroidVecs (by simpa [Manager.centroidVecs] using h1) (by
    intro v hv
    obtain ⟨x, hx, rfl⟩ := List.mem_map.1 hv
    exact (h2 x hx).1)
  obtain ⟨r, e1, e2⟩ := knnBrute_kbest d.vec cosineSimilarity false 1 m.centroidVecs
  have hr : r = j :: js := by
    have : knnCos d.vec m.centroidVecs 1 = .ok r := e1
    rw [hj] at this; cases this; rfl
  obtain ⟨s, v, hv, hs, hc⟩ := e2.valid j (by simp [hr])
  obtain ⟨x, hx, rfl⟩ := List.mem_map.1 (List.mem_of_getElem? hv)
  exact (h2 x hx).2 s hs hc

theorem addDataPoint_mok (hm : MonoClock c.env.tk) {m : Manager F} (hw : MOK (c.D c.own) m) {d : DataPoint F}
    (hd : d.vec.length = c.D c.own) (H : List (DataPoint F)) (p : Nat) :
    Go.wp (m.addDataPoint c.env.tk d) (fun r p' => p ≤ p' ∧ MOK (c.D c.own) r.2 ∧
      ∃ X, (X = [] ∨ X = [d]) ∧ (X ≠ [] → TurnsAway m d) ∧
        Conserved (c.env.tk p') ((d :: H) ++ stored m) ((X ++ H) ++ stored r.2) []) p := by
  refine Go.wp_mono (Go.wp_and (Manager.wp_addDataPoint hm hw.wf d p) (Manager.wp_addDataPoint_refused hm hw.wf d p))
    (fun r p' hr => ?_)
  obtain ⟨⟨h1, h2, h3, h4, h5⟩, h6⟩ := hr
  cases hb : r.1 with
  | true =>
    have he := (h3 hb).eff hm hw.wf
    refine ⟨h1, hw.of_eff he (by simpa using hd), [], .inl rfl, fun h => absurd rfl h, ?_⟩
    obtain ⟨lost, e1, e2⟩ := he.conserved
    have e1' : (stored r.2 ++ [] ++ lost).Perm ([d] ++ stored m) := e1
    exact ⟨lost, by permc [e1'], e2⟩
  | false =>
    have he := h2 hb
    rw [he]
    refine ⟨h1, hw, ?_⟩
    by_cases hdead : Dead (c.env.tk p') d
    · exact ⟨[], .inl rfl, fun h => absurd rfl h, [d], by permc [List.Perm.refl ([] : List (DataPoint F))], by simpa using hdead⟩
    · refine ⟨[d], .inr rfl, fun _ => ?_, Conserved.refl _ _⟩
      obtain ⟨hne, h7⟩ := h6 hb hdead
      have hl : d.vec.length = m.vec.length := by rw [hd, hw.len]
      rw [hw.knn] at h7
      exact turnsAway_of_knn hne (fun x hx => by rw [(hw.wf.dim x hx).1, hl]) (h7.resolve_right (fun h => h hl))

theorem turned_all {m : Manager F} {d : DataPoint F} {X : List (DataPoint F)} (h : X = [] ∨ X = [d]) (ht : X ≠ [] → TurnsAway m d)
    (hR : ∀ d, TurnsAway m d → c.R d) : ∀ x ∈ X, c.R x := by
  rcases h with rfl | rfl
  · simp
  · simpa using hR d (ht (by simp))

theorem safe_make {fac : Factory F} (hf : FactoryOK fac) {n : Nat} {v : List F} (hv : v.length = n) (p : Nat)
    {Q : Manager F → Nat → Prop} (h : ∀ m, MOK n m → m.centroids = [] → Q m p) : Go.wp (fac.make v) Q p := by
  unfold Factory.make Manager.new
  simp only [Go.wp_bind, Go.wp_checkMake, Go.wp_pure]
  refine ⟨hf.cap, h _ ⟨⟨hf.cap, ?_, by simp, by simp⟩, hf.knn, hf.kfn, hv⟩ rfl⟩
  rw [show (_ : Manager F).knn = fac.knn from rfl, show (_ : Manager F).kfn = fac.kfn from rfl, hf.knn, hf.kfn]
  exact ⟨searchOK_prefabs.1, searchOK_prefabs.2.1⟩

theorem safe_putBack (hm : MonoClock c.env.tk) {a : Addr} {d : DataPoint F} (hd : d.vec.length = c.D c.own) {L : View}
    {H H0 : List (DataPoint F)} {M : List (Entry F)} (hH : H0.Perm (d :: H)) {Q : Unit → View → List (DataPoint F) → List (Entry F) → Prop}
    (h : ∀ L' X, L.Le L' → (X = [] ∨ X = [d]) →
      (L.has a c.own → ∀ x ∈ X, c.R x) → ∀ H', H'.Perm (X ++ H) → Q () L' H' M) :
    Safe c (Server.putBack c.env a c.own d) L H0 M Q := by
  unfold Server.putBack
  refine safe_bind (safe_access (fun m p hmok hR => ?_) (fun w hi hl hlk => safe_pure (h _ [d] hl (.inr rfl)
    (fun hx => absurd hlk (hl.has _ _ hx)) _ hH)))
  refine Go.wp_mono (addDataPoint_mok hm hmok hd H p) (fun r p' hr => ?_)
  obtain ⟨h1, h2, X, h3, h4, h5⟩ := hr
  exact ⟨h1, h2, X ++ H, h5.perm_before (hH.append_right _).symm,
    fun L' hL' _ => h L' X hL' h3 (fun _ => turned_all h3 h4 hR) _ (.refl _)⟩

theorem safe_addDataPoint (hm : MonoClock c.env.tk) {fac : Factory F} (hf : FactoryOK fac) {a : Addr}
    {d : DataPoint F} (hd : d.vec.length = c.D c.own) {L : View} (ho : c.Open a ∨ L.has a c.own)
    {H H0 : List (DataPoint F)} {M : List (Entry F)} (hH : H0.Perm (d :: H)) {Q : Bool → View → List (DataPoint F) → List (Entry F) → Prop}
    (h : ∀ L' X, L.Le L' → L'.has a c.own → (X = [] ∨ X = [d]) → (∀ x ∈ X, c.R x) → Q true L' (X ++ H) M) :
    Safe c (Server.addDataPoint c.env fac a c.own d) L H0 M Q := by
  unfold Server.addDataPoint
  refine safe_bind (safe_access (fun m p hmok hR => ?_) (fun w hi hl hlk => ?_))
  · refine Go.wp_mono (addDataPoint_mok hm hmok hd H p) (fun r p' hr => ?_)
    obtain ⟨h1, h2, X, h3, h4, h5⟩ := hr
    exact ⟨h1, h2, X ++ H, h5.perm_before (hH.append_right _).symm, fun L' hL' hh => h L' X hL' hh h3 (turned_all h3 h4 hR)⟩
  · rcases ho with (ho | ho) | ho
    · refine safe_bind (safe_mono _ (safe_loc (Q := fun m L' H' M' => MOK (c.D c.own) m ∧ H'.Perm (H ++ stored m) ∧
        L.Le L' ∧ M' = M) (fun p => ?_)) (fun m L' H' M' hq => ?_))
      · simp only [Go.wp_bind, Go.wp_pure]
        refine safe_make hf hd p (fun m hmok he => ?_)
        refine Go.wp_mono (addDataPoint_mok hm hmok hd H p) (fun r p' hr => ?_)
        obtain ⟨h1, h2, X, h3, h4, h5⟩ := hr
        have hX : X = [] := by
          by_contra hx
          exact (h4 hx).1 he
        rw [hX] at h5
        refine ⟨h1, H ++ stored r.2, ?_, fun L' hL' => ⟨h2, .refl _, hl.trans hL', trivial⟩⟩
        have hs : stored m = [] := by simp [stored, he]
        rw [hs] at h5
        refine Conserved.perm_before ?_ hH.symm
        simpa using h5
      · obtain ⟨hm1, hm2, hm3, rfl⟩ := hq
        refine safe_bind (safe_addSlot hm1 (fun w hi => ho w m hi) hm2 (fun L'' hL'' hh => ?_))
        exact h L'' [] (hm3.trans hL'') hh (.inl rfl) (by simp)
    · exact absurd hlk (ho w hi)
    · exact absurd hlk (hl.has _ _ ho)

/-! ### The environment -/

theorem reorder_perm {β : Type} {is : List Nat} {l : List β} (h : is.Perm (List.range l.length)) :
    (Env.reorder is l).Perm l := by
  unfold Env.reorder
  refine (h.filterMap _).trans (List.Perm.of_eq ?_)
  have : ∀ (a b : List β), (List.range' a.length b.length).filterMap (fun i => (a ++ b)[i]?) = b := by
    intro a b
    induction b generalizing a with
    | nil => simp
    | cons x b ih =>
      rw [List.length_cons, List.range'_succ, List.filterMap_cons]
      simp only [List.getElem?_append_right (Nat.le_refl _), Nat.sub_self, List.getElem?_cons_zero]
      have := ih (a ++ [x])
      rw [List.length_append, List.length_singleton, List.append_assoc, List.singleton_append] at this
      rw [this]
  rw [List.range_eq_range']
  exact this [] l

theorem ordOK_mapOrder {env : Env} (he : EnvOK env) (p : Nat) :
    Manager.OrdOK (fun l : List (Nat × Nat) => Env.reorder (env.perm p l.length) l) :=
  fun l => reorder_perm (he.perm p l.length)

theorem wp_mapOrder {env : Env} (he : EnvOK env) {p : Nat} {Q : (List (Nat × Nat) → List (Nat × Nat)) → Nat → Prop}
    (h : ∀ ord, Manager.OrdOK ord → Q ord (p + 1)) : Go.wp env.mapOrder Q p := by
  show Go.wp (fun p => .ok (_, p + 1)) Q p
  unfold Go.wp
  exact h _ (ordOK_mapOrder he p)

theorem wp_shuffled {env : Env} (he : EnvOK env) {l : List β} {p : Nat} {Q : List β → Nat → Prop}
    (h : ∀ l', l'.Perm l → Q l' (p + 1)) : Go.wp (env.shuffled l) Q p := by
  show Go.wp (fun p => .ok (_, p + 1)) Q p
  unfold Go.wp
  exact h _ (reorder_perm (he.perm p l.length))

theorem wp_sent {env : Env} {a : Addr} {p : Nat} {Q : Bool → Nat → Prop} (h : Q (env.up p a) (p + 1)) :
    Go.wp (env.sent a) Q p := h

theorem wp_arrived {env : Env} {a : Addr} {p : Nat} {Q : Bool → Nat → Prop} (h : Q (env.back p a) (p + 1)) :
    Go.wp (env.arrived a) Q p := h

theorem Manager.Eff.mono_start {tk : Nat → Int} {p p' q : Nat} {m m' : Manager F} {acc out : List (DataPoint F)}
    (h : Manager.Eff tk p p' m m' acc out) (hq : q ≤ p) : Manager.Eff tk q p' m m' acc out :=
  ⟨Nat.le_trans hq h.le, h.wf, h.same, h.conserved, h.len⟩

theorem MOK.dims {n : Nat} {m : Manager F} (h : MOK n m) : ∀ d ∈ stored m, d.vec.length = n := by
  intro d hd
  obtain ⟨x, hx, hd⟩ := List.mem_flatMap.1 hd
  rw [(h.wf.dim x hx).2 d hd, (h.wf.dim x hx).1, h.len]

theorem MOK.dims_out {tk : Nat → Int} {p p' n : Nat} {m m' : Manager F} {out : List (DataPoint F)} (h : MOK n m)
    (he : Manager.Eff tk p p' m m' [] out) : ∀ d ∈ out, d.vec.length = n := by
  intro d hd
  obtain ⟨lost, e1, _⟩ := he.conserved
  have : d ∈ [] ++ Centroid.flat m.centroids := e1.subset (by simp [hd])
  exact h.dims d this

/-! ### The methods -/

section methods
variable (he : EnvOK c.env) {a : Addr} {L : View} {H : List (DataPoint F)} {M : List (Entry F)}
include he

theorem safe_vec {Q : Option (List F) → View → List (DataPoint F) → List (Entry F) → Prop}
    (h : ∀ r L', L.Le L' → (∀ v, r = some v → v.length = c.D c.own ∧ L'.has a c.own) → Q r L' H M) :
    Safe c (Server.vec a c.own) L H M Q :=
  safe_access_read (fun m L' hm hL' hh => h _ L' hL' (by rintro v ⟨⟩; exact ⟨hm.len, hh⟩)) (fun L' hL' => h _ L' hL' (by simp))

theorem safe_lenDP {Q : Option Nat → View → List (DataPoint F) → List (Entry F) → Prop}
    (h : ∀ r L', L.Le L' → Q r L' H M) : Safe c (Server.lenDP a c.own) L H M Q :=
  safe_access_read (fun m L' hm hL' hh => h _ L' hL') (fun L' hL' => h _ L' hL')

theorem safe_drainUnordered {n : Int} (hn : 0 ≤ n)
    {Q : Option (List (DataPoint F)) → View → List (DataPoint F) → List (Entry F) → Prop}
    (h : ∀ r L', L.Le L' → (∀ l, r = some l → L'.has a c.own ∧ (l.length : Int) ≤ max n 1 ∧ ∀ d ∈ l, d.vec.length = c.D c.own) →
      Q r L' (r.getD [] ++ H) M) : Safe c (Server.drainUnordered c.env a c.own n) L H M Q := by
  refine safe_access_eff (out := id) (R := fun l => (l.length : Int) ≤ max n 1 ∧ ∀ d ∈ l, d.vec.length = c.D c.own)
    (fun m p hm => ?_) (fun b L' hL' hh hR => h (some b) L' hL' (by rintro _ ⟨⟩; exact ⟨hh, hR⟩)) (fun L' hL' => h none L' hL' (by simp))
  rw [Go.wp_bind]
  refine wp_mapOrder he (fun ord ho => Go.wp_mono (Manager.wp_drainUnordered he.clock ho hm.wf hn (p + 1)) (fun r p' hr => ?_))
  exact ⟨hr.1.mono_start (by omega), hr.2.2.2, hm.dims_out hr.1⟩

theorem safe_drainOrdered {n : Int} (hn : 0 ≤ n)
    {Q : Option (List (DataPoint F)) → View → List (DataPoint F) → List (Entry F) → Prop}
    (h : ∀ r L', L.Le L' → (∀ l, r = some l → L'.has a c.own ∧ (l.length : Int) ≤ max n 1 ∧ ∀ d ∈ l, d.vec.length = c.D c.own) →
      Q r L' (r.getD [] ++ H) M) : Safe c (Server.drainOrdered c.env a c.own n) L H M Q := by
  refine safe_access_eff (out := id) (R := fun l => (l.length : Int) ≤ max n 1 ∧ ∀ d ∈ l, d.vec.length = c.D c.own)
    (fun m p hm => ?_) (fun b L' hL' hh hR => h (some b) L' hL' (by rintro _ ⟨⟩; exact ⟨hh, hR⟩)) (fun L' hL' => h none L' hL' (by simp))
  rw [Go.wp_bind]
  refine wp_mapOrder he (fun ord ho => Go.wp_mono (Manager.wp_drainOrdered he.clock ho hm.wf hn (p + 1)) (fun r p' hr => ?_))
  exact ⟨hr.1.mono_start (by omega), hr.2.2.2, hm.dims_out hr.1⟩

theorem safe_expire {Q : Option Unit → View → List (DataPoint F) → List (Entry F) → Prop}
    (h : ∀ r L', L.Le L' → Q r L' H M) : Safe c (Server.expire c.env a c.own) L H M Q := by
  refine safe_access_eff (out := fun _ => []) (R := fun _ => True) (fun m p hm => ?_)
    (fun b L' hL' hh hR => h _ L' hL') (fun L' hL' => h none L' hL')
  simp only [Go.wp_bind, Go.wp_pure]
  exact Go.wp_mono (Manager.wp_expire he.clock hm.wf p) (fun r p' hr => ⟨hr.1, trivial⟩)

theorem safe_memTrim {Q : Option Unit → View → List (DataPoint F) → List (Entry F) → Prop}
    (h : ∀ r L', L.Le L' → Q r L' H M) : Safe c (Server.memTrim c.env a c.own) L H M Q := by
  refine safe_access_eff (out := fun _ => []) (R := fun _ => True) (fun m p hm => ?_)
    (fun b L' hL' hh hR => h _ L' hL') (fun L' hL' => h none L' hL')
  simp only [Go.wp_bind, Go.wp_pure]
  exact Go.wp_mono (Manager.wp_memTrim he.clock hm.wf p) (fun r p' hr => ⟨hr.1, trivial⟩)

theorem safe_moveVector {Q : Option Bool → View → List (DataPoint F) → List (Entry F) → Prop}
    (h : ∀ r L', L.Le L' → Q r L' H M) : Safe c (Server.moveVector c.env a c.own) L H M Q := by
  refine safe_access_eff (out := fun _ => []) (R := fun _ => True) (fun m p hm => ?_)
    (fun b L' hL' hh hR => h _ L' hL') (fun L' hL' => h none L' hL')
  exact Go.wp_mono (Manager.wp_moveVector he.clock hm.wf p) (fun r p' hr => ⟨hr.1, trivial⟩)

theorem safe_distributeInternal {n : Int} {Q : Option Unit → View → List (DataPoint F) → List (Entry F) → Prop}
    (h : ∀ r L', L.Le L' → Q r L' H M) : Safe c (Server.distributeInternal c.env a c.own n) L H M Q := by
  refine safe_access_eff (out := fun _ => []) (R := fun _ => True) (fun m p hm => ?_)
    (fun b L' hL' hh hR => h _ L' hL') (fun L' hL' => h none L' hL')
  simp only [Go.wp_bind, Go.wp_pure]
  refine wp_mapOrder he (fun ord ho => ?_)
  exact Go.wp_mono (Manager.wp_distributeInternal he.clock ho hm.wf n (p + 1))
    (fun r p' hr => ⟨hr.1.mono_start (by omega), trivial⟩)

theorem safe_splitCentroids {min max : Int} {Q : Option Unit → View → List (DataPoint F) → List (Entry F) → Prop}
    (h : ∀ r L', L.Le L' → Q r L' H M) : Safe c (Server.splitCentroids c.env a c.own min max) L H M Q := by
  refine safe_access_eff (out := fun _ => []) (R := fun _ => True) (fun m p hm => ?_)
    (fun b L' hL' hh hR => h _ L' hL') (fun L' hL' => h none L' hL')
  simp only [Go.wp_bind, Go.wp_pure]
  exact Go.wp_mono (Manager.wp_splitCentroids he.clock hm.wf _ p) (fun r p' ⟨_, _, hr, _⟩ => ⟨hr, trivial⟩)

theorem safe_mergeCentroids {min max : Int} {Q : Option Unit → View → List (DataPoint F) → List (Entry F) → Prop}
    (h : ∀ r L', L.Le L' → Q r L' H M) : Safe c (Server.mergeCentroids c.env a c.own min max) L H M Q := by
  refine safe_access_eff (out := fun _ => []) (R := fun _ => True) (fun m p hm => ?_)
    (fun b L' hL' hh hR => h _ L' hL') (fun L' hL' => h none L' hL')
  simp only [Go.wp_bind, Go.wp_pure]
  exact Go.wp_mono (Manager.wp_mergeCentroids he.clock hm.wf _ p) (fun r p' hr => ⟨hr.1, trivial⟩)

theorem safe_knnLookup {v : List F} {k : Int} (hk : 0 ≤ k) {drain : Bool}
    {Q : Option (List (DataPoint F)) → View → List (DataPoint F) → List (Entry F) → Prop}
    (h : ∀ r L', L.Le L' → (∀ l, r = some l → (l.length : Int) ≤ k) →
      Q r L' ((if drain then r.getD [] else []) ++ H) M) :
    Safe c (Server.knnLookup c.env a c.own v k drain) L H M Q := by
  refine safe_access_eff (out := fun l => if drain then l else []) (R := fun l => (l.length : Int) ≤ k)
    (fun m p hm => ?_) (fun b L' hL' hh hR => h (some b) L' hL' (by rintro _ ⟨⟩; exact hR)) (fun L' hL' => ?_)
  · refine Go.wp_mono (Manager.wp_knnLookup he.clock hm.wf v hk drain p) (fun r p' hr => ?_)
    obtain ⟨is, _, _, _, hp⟩ := hr
    exact ⟨hp.eff, by simpa using hp.count⟩
  · have := h none L' hL' (by simp)
    simpa using this

theorem wp_nearest_eff {m : Manager F} (hm : MOK (c.D c.own) m) (v : List F) {n : Int} (hn : 0 ≤ n) (drain : Bool) (p : Nat) :
    Go.wp (m.nearestCentroids v n drain) (fun r p' => Manager.Eff c.env.tk p p' m r.2 []
        (if drain then ((r.1.getD []).map (fun x => x.dps)).flatten else []) ∧
      ((r.1.getD []).length : Int) ≤ n ∧ (∀ x ∈ r.1.getD [], x ∈ m.centroids)) p := by
  refine Go.wp_mono (Manager.wp_nearestCentroids hm.wf v hn drain p) (fun r p' hr => ?_)
  obtain ⟨hp, is, h1, h2, h3, h4, h5⟩ := hr
  subst hp
  by_cases hi : is = []
  · rw [h4 hi]
    simp only [Option.getD_none, List.map_nil, List.flatten_nil, ite_self, List.length_nil]
    exact ⟨.refl hm.wf, by simpa using hn, by simp⟩
  · obtain ⟨cs, e1, e2, e3, e4⟩ := h5 hi
    have hlen : cs.length = is.length := by have := congrArg List.length e2; simpa using this.symm
    have hmem : ∀ x ∈ cs, x ∈ m.centroids := by
      intro x hx
      have : some x ∈ is.map (fun i => m.centroids[i]?) := by rw [e2]; exact List.mem_map_of_mem hx
      obtain ⟨i, _, hi⟩ := List.mem_map.1 this
      exact List.mem_of_getElem? hi
    rw [e1]
    simp only [Option.getD_some]
    refine ⟨?_, by rw [hlen]; exact h3, hmem⟩
    cases drain with
    | false => rw [e3 rfl]; exact .refl hm.wf
    | true =>
      obtain ⟨rem, d1, d2⟩ := e4 rfl
      refine ⟨Nat.le_refl _, d1.wf hm.wf, d1.same, ⟨[], ?_, by simp⟩, fun _ => d1.vec_length hm.wf⟩
      have x1 := Manager.flat_perm d1.perm
      have x2 := Manager.flat_perm d2
      rw [Manager.flat_append] at x1
      have x3 : Centroid.flat cs = (cs.map (fun x => x.dps)).flatten := by
        unfold Centroid.flat; rw [List.flatMap_def]
      rw [x3] at x2
      simp only [if_true]
      permc [x1, x2]

theorem safe_nearestCentroids {v : List F} {n : Int} (hn : 0 ≤ n) {drain : Bool}
    {Q : Option (List (List (DataPoint F))) → View → List (DataPoint F) → List (Entry F) → Prop}
    (h : ∀ r L', L.Le L' → (∀ l, r = some l → (l.length : Int) ≤ n ∧ ∀ x ∈ l, ∀ d ∈ x, d.vec.length = c.D c.own) →
      Q r L' ((if drain then (r.getD []).flatten else []) ++ H) M) :
    Safe c (Server.nearestCentroids a c.own v n drain) L H M Q := by
  refine safe_access_eff (out := fun l => if drain then l.flatten else [])
    (R := fun l => (l.length : Int) ≤ n ∧ ∀ x ∈ l, ∀ d ∈ x, d.vec.length = c.D c.own)
    (fun m p hm => ?_) (fun b L' hL' hh hR => h (some b) L' hL' (by rintro _ ⟨⟩; exact hR)) (fun L' hL' => ?_)
  · simp only [Go.wp_bind, Go.wp_pure]
    refine Go.wp_mono (wp_nearest_eff he hm v hn drain p) (fun r p' hr => ⟨hr.1, ?_, ?_⟩)
    · rw [List.length_map]; exact hr.2.1
    · intro x hx d hd
      obtain ⟨y, hy, rfl⟩ := List.mem_map.1 hx
      exact hm.dims d (List.mem_flatMap.2 ⟨y, hr.2.2 y hy, hd⟩)
  · have := h none L' hL' (by simp)
    simpa using this

theorem safe_nearestCentroidVec {v : List F}
    {Q : Option (List F) → View → List (DataPoint F) → List (Entry F) → Prop}
    (h : ∀ r L', L.Le L' → (∀ v, r = some v → L'.has a c.own) → Q r L' H M) : Safe c (Server.nearestCentroidVec a c.own v) L H M Q := by
  refine safe_access_eff (out := fun _ => []) (R := fun _ => True)
    (fun m p hm => ?_) (fun b L' hL' hh hR => h (some b) L' hL' (fun _ _ => hh)) (fun L' hL' => h none L' hL' (by simp))
  simp only [Go.wp_bind]
  refine Go.wp_mono (wp_nearest_eff he hm v (by omega : (0 : Int) ≤ 1) false p) (fun r p' hr => ?_)
  have := hr.1
  simp only [Bool.false_eq_true, if_false] at this
  cases hx : r.1.getD [] with
  | nil => simp only [Go.wp_pure]; exact ⟨this, trivial⟩
  | cons y ys => simp only [Go.wp_pure]; exact ⟨this, trivial⟩

end methods

end
end Trypo
