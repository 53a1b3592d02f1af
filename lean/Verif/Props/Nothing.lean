import Verif.Props.ReadOnly

/-!
# Property C130: maintenance with nothing to do

`Expire` when nothing is expired, `MoveVector` for the second time, `SplitCentroids` and `MergeCentroids` when no centroid is in the range: nothing
should change. It does not, except for `Expire` in float64, which takes the vector of every centroid out of the manager's sum and puts it back.
-/

set_option linter.unusedSectionVars false

namespace Trypo
open GoFloat Spec
variable {F : Type} [GoFloat F] [LawfulCmp F]

namespace NothingExample
open ServerExample ReadExample

/-- The vector of node 1 and the answer of a fast query, before and after a call of `Expire`. -/
def expired (o : Api.QueryOpts F64) : Prog F64 (List (List (List F64)) × List (Answer F64)) := do
  let _ ← Prog.each (fun r => r.serve env fac2) (setUp.take 5)
  let a ← Request.serve env fac2 (.vec 1 7)
  let _ ← Request.serve env fac2 (.expire 1 7)
  let b ← Request.serve env fac2 (.vec 1 7)
  let y ← Api.queryDataPoint env [1] (some o)
  pure ([y.2.map (fun d => d.vec)], [a, b])

end NothingExample
open ServerExample ReadExample NothingExample

set_option synthInstance.maxSize 1000 in
/-- C130 is violated: node 1 holds three datapoints that never expire. One call of `Expire` turns its vector from `(1, 0)` into `(0, 0)`, after which
a fast query finds none of them. -/
theorem C130_refuted : ∃ r p', (expired ⟨7, false, [.ofInt 1, .ofInt 0], 3, false⟩).run start 0 = .ok (r, p') ∧
    (r.1, at12 r.2) = (([[]], [.vec [.ofInt 1, .ofInt 0], .vec [.ofInt 0, .ofInt 0]]), [dp (2 ^ 60) 0, dp (-2 ^ 60) 0, dp 3 0], []) :=
  exists_of_run (f := fun (r : (List (List (List F64)) × List (Answer F64)) × World F64) => (r.1, at12 r.2)) (by decide +kernel)

namespace Manager

theorem wp_expireLoop_nothing {tk : Nat → Int} (hm : MonoClock tk) : ∀ (is : List Nat) (cm : Manager F) (p : Nat),
    (∀ i ∈ is, i < cm.centroids.length) → Go.wp (expireLoop tk is cm) (fun cm' p' => p ≤ p' ∧
      ((∀ d ∈ stored cm, ¬ Dead (tk p') d) → Touched cm cm')) p
  | [], cm, p, _ => by
    unfold expireLoop
    rw [Go.wp_pure]
    exact ⟨Nat.le_refl _, fun _ => .refl cm⟩
  | i :: is, cm, p, hi => by
    have hc := List.getElem?_eq_getElem (hi i (by simp))
    generalize cm.centroids[i]'(hi i (by simp)) = c at hc
    have hcm := List.mem_of_getElem? hc
    unfold expireLoop onCentroid
    simp only [Go.wp_bind, Go.wp_idx, Go.wp_pure]
    refine ⟨c, hc, Go.wp_mono (Centroid.wp_expire hm c p) (fun c' p1 h1 => ?_)⟩
    refine Go.wp_mono (wp_expireLoop_nothing hm is (cm.upd i c.vec c') p1 ?_) (fun s p2 hs => ?_)
    · intro j hj
      rw [upd_centroids, List.length_set]
      exact hi j (by simp [hj])
    · refine ⟨Nat.le_trans h1.le hs.1, fun hd => ?_⟩
      have e : c' = c := Purged.same h1 (fun d h => not_dead_earlier (hm _ _ hs.1) (hd d (List.mem_flatMap.2 ⟨c, hcm, h⟩)))
      subst e
      have ht : Touched cm (cm.upd i c'.vec c') := ⟨[c'], by simpa using hcm, upd_same hc⟩
      have hst : stored (cm.upd i c'.vec c') = stored cm := by unfold stored; rw [ht.centroids]
      exact ht.trans (hs.2 (by rw [hst]; exact hd))

theorem wp_expire_nothing {tk : Nat → Int} (hm : MonoClock tk) (cm : Manager F) (p : Nat) :
    Go.wp (cm.expire tk) (fun cm' p' => p ≤ p' ∧ ((∀ d ∈ stored cm, ¬ Dead (tk p') d) → Touched cm cm')) p :=
  wp_expireLoop_nothing hm _ cm p (by simp)

/-- The vector of a centroid is what `MoveVector` makes it. -/
def Settled (c : Centroid F) : Prop := (vecMean (c.dps.map (fun d => d.vec))).2 = true → c.vec = (vecMean (c.dps.map (fun d => d.vec))).1

theorem wp_moveVector_settled {tk : Nat → Int} (hm : MonoClock tk) (c : Centroid F) (hd : c.DimOK) (p : Nat) :
    Go.wp (c.moveVector tk) (fun r p' => p ≤ p' ∧ Settled r.2 ∧ (Settled c → (∀ d ∈ c.dps, ¬ Dead (tk p') d) → r.2 = c)) p := by
  refine Go.wp_mono (Centroid.wp_moveVector hm c hd p) (fun r p' h => ?_)
  obtain ⟨c1, h1, h2⟩ := h
  refine ⟨h1.le, ?_⟩
  split at h2
  · rename_i ht
    subst h2
    refine ⟨fun _ => rfl, fun hs hl => ?_⟩
    have e := Purged.same h1 hl
    subst e
    show { c1 with vec := _ } = c1
    rw [← hs ht]
  · rename_i ht
    subst h2
    exact ⟨fun h => absurd h ht, fun _ hl => Purged.same h1 hl⟩

theorem wp_moveAll_settled {tk : Nat → Int} (hm : MonoClock tk) : ∀ (cs : List (Centroid F)) (p : Nat), (∀ c ∈ cs, c.DimOK) →
    Go.wp (moveAll tk cs) (fun cs' p' => p ≤ p' ∧ (∀ c ∈ cs', Settled c) ∧
      ((∀ c ∈ cs, Settled c) → (∀ c ∈ cs, ∀ d ∈ c.dps, ¬ Dead (tk p') d) → cs' = cs)) p
  | [], p, _ => by
    unfold moveAll
    rw [Go.wp_pure]
    exact ⟨Nat.le_refl _, by simp, fun _ _ => rfl⟩
  | c :: cs, p, hd => by
    unfold moveAll
    simp only [Go.wp_bind, Go.wp_pure]
    refine Go.wp_mono (wp_moveVector_settled hm c (hd c (by simp)) p) (fun r p1 h1 => ?_)
    refine Go.wp_mono (wp_moveAll_settled hm cs p1 (fun c hc => hd c (by simp [hc]))) (fun cs' p2 h2 => ?_)
    obtain ⟨a1, a2, a3⟩ := h1
    obtain ⟨b1, b2, b3⟩ := h2
    refine ⟨by omega, ?_, fun hs hl => ?_⟩
    · intro x hx
      rcases List.mem_cons.1 hx with rfl | hx
      · exact a2
      · exact b2 x hx
    · rw [a3 (hs c (by simp)) (fun d h => not_dead_earlier (hm _ _ b1) (hl c (by simp) d h)),
        b3 (fun c hc => hs c (by simp [hc])) (fun c hc => hl c (by simp [hc]))]

theorem wp_mMoveVector_settled {tk : Nat → Int} (hm : MonoClock tk) {cm : Manager F} (hw : cm.WF) (p : Nat) :
    Go.wp (cm.moveVector tk) (fun r p' => p ≤ p' ∧ r.1 = (vecMean r.2.centroidVecs).2 ∧ (r.1 = true → r.2.vec = (vecMean r.2.centroidVecs).1) ∧
      (∀ c ∈ r.2.centroids, Settled c) ∧ ((∀ c ∈ cm.centroids, Settled c) →
        ((vecMean cm.centroidVecs).2 = true → cm.vec = (vecMean cm.centroidVecs).1) → (∀ d ∈ stored cm, ¬ Dead (tk p') d) → r.2 = cm)) p := by
  unfold moveVector
  rw [Go.wp_bind]
  refine Go.wp_mono (wp_moveAll_settled hm cm.centroids p (fun c hc => (hw.dim c hc).2)) (fun cs p1 h => ?_)
  obtain ⟨h1, h2, h3⟩ := h
  rw [Go.wp_ite]
  refine ⟨fun ht => ?_, fun ht => ?_⟩
  · rw [Go.wp_pure]
    refine ⟨h1, ht.symm, fun _ => rfl, h2, fun hs hv hl => ?_⟩
    have e := h3 hs (fun c hc d hd => hl d (List.mem_flatMap.2 ⟨c, hc, hd⟩))
    subst e
    show { cm with vec := (vecMean cm.centroidVecs).1 } = cm
    rw [← hv ht]
  · rw [Go.wp_pure]
    have ht' : (vecMean (cs.map (fun c => c.vec))).2 = false := by simpa using ht
    refine ⟨h1, ht'.symm, fun h => by simp at h, h2, fun hs _ hl => ?_⟩
    have e := h3 hs (fun c hc d hd => hl d (List.mem_flatMap.2 ⟨c, hc, hd⟩))
    subst e
    rfl

theorem wp_splitLoop_nothing (tk : Nat → Int) (split : Centroid F → Bool) (cm : Manager F)
    (h : ∀ c ∈ cm.centroids, split c = false ∨ c.dps.length ≤ 1) (acc : List (Centroid F)) (p : Nat) :
    ∀ is : List Nat, (∀ i ∈ is, i < cm.centroids.length) → Go.wp (splitLoop tk split is cm acc) (fun r p' => p' = p ∧ r = (acc, cm)) p
  | [], _ => by
    unfold splitLoop
    rw [Go.wp_pure]
    exact ⟨rfl, rfl⟩
  | i :: is, hi => by
    have hc := List.getElem?_eq_getElem (hi i (by simp))
    have ih := wp_splitLoop_nothing tk split cm h acc p is (fun j hj => hi j (by simp [hj]))
    have hx := h _ (List.getElem_mem (hi i (by simp)))
    generalize cm.centroids[i]'(hi i (by simp)) = c at hc hx
    unfold splitLoop
    simp only [Go.wp_bind, Go.wp_idx]
    refine ⟨c, hc, ?_⟩
    rw [Go.wp_ite]
    refine ⟨fun _ => ih, fun hs => ?_⟩
    have h1 : c.dps.length ≤ 1 := hx.resolve_left (by simpa using hs)
    have h2 : c.lenDP / 2 = 0 := by unfold Centroid.lenDP; omega
    rw [Go.wp_bind, h2]
    unfold splitCentroid
    simp only [hc]
    rw [if_pos (by simp), Go.wp_pure]
    exact ih

theorem wp_split_nothing (tk : Nat → Int) (split : Centroid F → Bool) (cm : Manager F)
    (h : ∀ c ∈ cm.centroids, split c = false ∨ c.dps.length ≤ 1) (p : Nat) : Go.wp (cm.splitCentroids tk split) (fun cm' p' => p' = p ∧ cm' = cm) p := by
  unfold splitCentroids
  rw [Go.wp_bind]
  refine Go.wp_mono (wp_splitLoop_nothing tk split cm h [] p _ (by simp)) (fun r p' hr => ?_)
  obtain ⟨rfl, rfl⟩ := hr
  rw [Go.wp_pure]
  exact ⟨rfl, by simp⟩

theorem wp_mergeOuter_nothing (tk : Nat → Int) (merge : Centroid F → Bool) (cm : Manager F) (h : ∀ c ∈ cm.centroids, merge c = false) (p : Nat) :
    ∀ is : List Nat, (∀ i ∈ is, i < cm.centroids.length) → Go.wp (mergeOuter tk merge is [] cm) (fun r p' => p' = p ∧ r = ([], cm)) p
  | [], _ => by
    unfold mergeOuter
    rw [Go.wp_pure]
    exact ⟨rfl, rfl⟩
  | i :: is, hi => by
    have ih := wp_mergeOuter_nothing tk merge cm h p is (fun j hj => hi j (by simp [hj]))
    unfold mergeOuter
    simp only [Go.wp_bind, Go.wp_idx]
    refine ⟨_, List.getElem?_eq_getElem (hi i (by simp)), ?_⟩
    rw [Go.wp_ite]
    refine ⟨fun _ => ih, fun hs => ?_⟩
    rw [h _ (List.getElem_mem (hi i (by simp)))] at hs
    simp at hs

theorem wp_merge_nothing (tk : Nat → Int) (merge : Centroid F → Bool) (cm : Manager F) (h : ∀ c ∈ cm.centroids, merge c = false) (p : Nat) :
    Go.wp (cm.mergeCentroids tk merge) (fun cm' p' => p' = p ∧ cm' = cm) p := by
  unfold mergeCentroids
  rw [Go.wp_bind]
  refine Go.wp_mono (wp_mergeOuter_nothing tk merge cm h p _ (by simp)) (fun r p' hr => ?_)
  obtain ⟨rfl, rfl⟩ := hr
  have e : (List.range cm.centroids.length).reverse.filter (· ∈ ([] : List Nat)) = [] := by simp
  rw [e]
  unfold deleteAll
  rw [Go.wp_pure]
  exact ⟨rfl, rfl⟩

end Manager

theorem wp_server_expire_nothing {env : Env} (hm : MonoClock env.tk) {D : NS → Nat} {w : World F} (hw : WorldOK D w) (a : Addr) (ns : NS) (p : Nat) :
    Go.wp ((Server.expire env a ns).run w) (fun r p' => p ≤ p' ∧ ((∀ d ∈ storedAt w [a] ns, ¬ Dead (env.tk p') d) → AllTouched w r.2)) p := by
  unfold Server.expire
  cases hg : w.get a ns with
  | none =>
    rw [run_access_none ((get_eq_none_iff hw).1 hg), Go.wp_pure]
    exact ⟨Nat.le_refl _, fun _ => .refl w⟩
  | some m =>
    obtain ⟨i, hl, hi⟩ := lookup_of_get hw hg
    rw [run_access_some hl hi, Go.wp_bind, Go.wp_bind]
    refine Go.wp_mono (Manager.wp_expire_nothing hm m p) (fun m' p' hr => ?_)
    rw [Go.wp_pure, Go.wp_pure]
    refine ⟨hr.1, fun hd => ?_⟩
    rw [storedAt_one hg] at hd
    have ht := hr.2 hd
    intro b ns'
    by_cases hb : b = a ∧ ns' = ns
    · obtain ⟨rfl, rfl⟩ := hb
      exact .inr ⟨m, m', hg, get_put_self hl hi, ht⟩
    · have := get_put_other (m' := m') hw hl hi (b := b) (ns' := ns') (by by_contra h; push Not at h; exact hb h)
      rw [this]
      exact AllTouched.refl w b ns'

/-- C130, `Expire` at a node where nothing is expired: no manager changes in anything but its vector. -/
theorem C130_expire_partial {env : Env} (hm : MonoClock env.tk) {D : NS → Nat} {w : World F} (hw : WorldOK D w) (a : Addr) (ns : NS) (p : Nat) :
    ∃ r w' p', (Server.expire env a ns).run w p = .ok ((r, w'), p') ∧ ((∀ d ∈ storedAt w [a] ns, ¬ Dead (env.tk p') d) →
      ∀ b ns', (w'.get b ns').map (fun m => { m with vec := [] }) = (w.get b ns').map (fun m => { m with vec := [] })) := by
  obtain ⟨r, p', h0, _, h2⟩ := Go.wp_iff.1 (wp_server_expire_nothing hm hw a ns p)
  refine ⟨r.1, r.2, p', h0, fun hd b ns' => ?_⟩
  rcases h2 hd b ns' with ⟨e1, e2⟩ | ⟨m, m', e1, e2, e3⟩
  · rw [e1, e2]
  · obtain ⟨u, rfl⟩ := e3.vec
    rw [e1, e2]
    rfl

/-- C130, `Expire` at a node where nothing is expired, in exact arithmetic: nothing changes. -/
theorem C130_expire_exact_partial {env : Env} (hm : MonoClock env.tk) {D : NS → Nat} {w : World ℝ} (hw : WorldOK D w) (a : Addr) (ns : NS) (p : Nat) :
    ∃ r w' p', (Server.expire env a ns).run w p = .ok ((r, w'), p') ∧ ((∀ d ∈ storedAt w [a] ns, ¬ Dead (env.tk p') d) →
      ∀ b ns', w'.get b ns' = w.get b ns') := by
  obtain ⟨r, p', h0, _, h2⟩ := Go.wp_iff.1 (wp_server_expire_nothing hm hw a ns p)
  refine ⟨r.1, r.2, p', h0, fun hd b ns' => ?_⟩
  rcases h2 hd b ns' with ⟨e1, e2⟩ | ⟨m, m', e1, e2, e3⟩
  · rw [e1, e2]
  · obtain ⟨i, _, hi⟩ := lookup_of_get hw e1
    rw [e1, e2, e3.real (fun c h => ((hw.mok hi).wf.dim c h).1)]

/-- C130, `MoveVector` twice in a row: unless something expires, the second call changes nothing and answers the same. -/
theorem C130_moveVector_partial {tk : Nat → Int} (hm : MonoClock tk) {cm : Manager F} (hc : ManagerOK cm) {p p' : Nat} {b : Bool} {cm' : Manager F}
    (h : cm.moveVector tk p = .ok ((b, cm'), p')) :
    ∃ r p'', cm'.moveVector tk p' = .ok (r, p'') ∧ ((∀ d ∈ stored cm', ¬ Dead (tk p'') d) → r = (b, cm')) := by
  obtain ⟨r, q, h0, h1⟩ := Go.wp_iff.1 (Go.wp_and (Manager.wp_mMoveVector_settled hm hc.wf p) (Manager.wp_moveVector hm hc.wf p))
  rw [h] at h0
  cases h0
  obtain ⟨⟨_, h2, h3, h4, _⟩, h5, _⟩ := h1
  obtain ⟨r, q, g0, _, g2, _, _, g5⟩ := Go.wp_iff.1 (Manager.wp_mMoveVector_settled hm h5.wf p')
  refine ⟨r, q, g0, fun hd => ?_⟩
  have e := g5 h4 (fun ht => h3 (h2.trans ht)) hd
  refine Prod.ext ?_ e
  rw [g2, e]
  exact h2.symm

/-- C130, `SplitCentroids` at a node whose centroids are outside the range or have at most one datapoint: nothing changes. -/
theorem C130_split_partial {env : Env} {D : NS → Nat} {w : World F} (hw : WorldOK D w) (a : Addr) (ns : NS) (min max : Int)
    (h : ∀ m, w.get a ns = some m → ∀ c ∈ m.centroids, ¬ (min < c.dps.length ∧ (c.dps.length : Int) < max) ∨ c.dps.length ≤ 1) (p : Nat) :
    ∃ r, (Server.splitCentroids env a ns min max).run w p = .ok ((r, w), p) := by
  suffices hs : Go.wp ((Server.splitCentroids env a ns min max).run w) (fun r p' => p' = p ∧ r.2 = w) p by
    obtain ⟨r, p', h0, rfl, h2⟩ := Go.wp_iff.1 hs
    exact ⟨r.1, by rw [h0, ← h2]⟩
  unfold Server.splitCentroids
  cases hg : w.get a ns with
  | none =>
    rw [run_access_none ((get_eq_none_iff hw).1 hg), Go.wp_pure]
    exact ⟨rfl, rfl⟩
  | some m =>
    obtain ⟨i, hl, hi⟩ := lookup_of_get hw hg
    rw [run_access_some hl hi, Go.wp_bind, Go.wp_bind]
    refine Go.wp_mono (Manager.wp_split_nothing _ _ m (fun c hc => ?_) p) (fun m' p' hr => ?_)
    · refine (h m hg c hc).imp_left (fun hn => ?_)
      rw [Bool.eq_false_iff]
      exact fun ht => hn (by
        simp only [Server.inRange, Bool.and_eq_true] at ht
        exact ⟨of_decide_eq_true ht.1, of_decide_eq_true ht.2⟩)
    · obtain ⟨rfl, rfl⟩ := hr
      rw [Go.wp_pure, Go.wp_pure]
      exact ⟨rfl, put_same hi⟩

/-- C130, `MergeCentroids` at a node whose centroids are outside the range: nothing changes. -/
theorem C130_merge_partial {env : Env} {D : NS → Nat} {w : World F} (hw : WorldOK D w) (a : Addr) (ns : NS) (min max : Int)
    (h : ∀ m, w.get a ns = some m → ∀ c ∈ m.centroids, ¬ (min < c.dps.length ∧ (c.dps.length : Int) < max)) (p : Nat) :
    ∃ r, (Server.mergeCentroids env a ns min max).run w p = .ok ((r, w), p) := by
  suffices hs : Go.wp ((Server.mergeCentroids env a ns min max).run w) (fun r p' => p' = p ∧ r.2 = w) p by
    obtain ⟨r, p', h0, rfl, h2⟩ := Go.wp_iff.1 hs
    exact ⟨r.1, by rw [h0, ← h2]⟩
  unfold Server.mergeCentroids
  cases hg : w.get a ns with
  | none =>
    rw [run_access_none ((get_eq_none_iff hw).1 hg), Go.wp_pure]
    exact ⟨rfl, rfl⟩
  | some m =>
    obtain ⟨i, hl, hi⟩ := lookup_of_get hw hg
    rw [run_access_some hl hi, Go.wp_bind, Go.wp_bind]
    refine Go.wp_mono (Manager.wp_merge_nothing _ _ m (fun c hc => ?_) p) (fun m' p' hr => ?_)
    · rw [Bool.eq_false_iff]
      exact fun ht => h m hg c hc (by
        simp only [Server.inRange, Bool.and_eq_true] at ht
        exact ⟨of_decide_eq_true ht.1, of_decide_eq_true ht.2⟩)
    · obtain ⟨rfl, rfl⟩ := hr
      rw [Go.wp_pure, Go.wp_pure]
      exact ⟨rfl, put_same hi⟩

/-! ## Concrete cases -/

/-- No centroid has between 6 and 8 datapoints. -/
example (p : Nat) : ∃ r, (Server.splitCentroids env 1 7 5 9).run two p = .ok ((r, two), p) :=
  C130_split_partial two_ok 1 7 5 9 (fun m hm c hc => .inl (fun ⟨h1, _⟩ => by
    have : m.centroids.all (fun c => decide (c.dps.length ≤ 2)) = true := by
      have e : (two.get 1 7).all (fun m => m.centroids.all (fun c => decide (c.dps.length ≤ 2))) = true := by decide +kernel
      rw [hm] at e
      exact e
    have := List.all_eq_true.1 this c hc
    simp only [decide_eq_true_eq] at this
    omega)) p

example (p : Nat) : ∃ r, (Server.mergeCentroids env 1 7 5 9).run two p = .ok ((r, two), p) :=
  C130_merge_partial two_ok 1 7 5 9 (fun m hm c hc => fun ⟨h1, _⟩ => by
    have : m.centroids.all (fun c => decide (c.dps.length ≤ 2)) = true := by
      have e : (two.get 1 7).all (fun m => m.centroids.all (fun c => decide (c.dps.length ≤ 2))) = true := by decide +kernel
      rw [hm] at e
      exact e
    have := List.all_eq_true.1 this c hc
    simp only [decide_eq_true_eq] at this
    omega) p

/-- Nothing at node 1 ever expires: `Expire` changes at most the vectors of the managers. -/
example (p : Nat) : ∃ r w' p', (Server.expire env 1 7).run two p = .ok ((r, w'), p') ∧
    ∀ b ns', (w'.get b ns').map (fun m => { m with vec := [] }) = (two.get b ns').map (fun m => { m with vec := [] }) := by
  obtain ⟨r, w', p', h0, h1⟩ := C130_expire_partial (env := env) env_ok.clock two_ok 1 7 p
  refine ⟨r, w', p', h0, h1 (fun d hd => ?_)⟩
  have e : (storedAt two [1] 7).all (fun d => !d.expireEnabled) = true := by decide +kernel
  have := List.all_eq_true.1 e d hd
  unfold Dead
  simp_all

set_option synthInstance.maxSize 1000 in
/-- The first `MoveVector` takes the centroid from `(1, 0)` to the mean `(2, 1)`, the second leaves everything. -/
example : Except.map (fun r => [(r.1.1.1, r.1.1.2.vec, r.1.1.2.centroids.map (fun c => (c.vec, c.dps))),
      (r.1.2.1, r.1.2.2.vec, r.1.2.2.centroids.map (fun c => (c.vec, c.dps)))]) ((do
      let a ← (man [.ofInt 1, .ofInt 0] [cen [.ofInt 1, .ofInt 0] [dp 1 0, dp 3 2]]).moveVector env.tk
      let b ← a.2.moveVector env.tk
      pure (a, b) : Go ((Bool × Manager F64) × (Bool × Manager F64))) 0) =
    .ok [(true, [.ofInt 2, .ofInt 1], [([.ofInt 2, .ofInt 1], [dp 1 0, dp 3 2])]), (true, [.ofInt 2, .ofInt 1], [([.ofInt 2, .ofInt 1], [dp 1 0, dp 3 2])])] := by
  decide +kernel

end Trypo
