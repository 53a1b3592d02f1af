import Verif.Props.ReadOnly

/-!
# Maintenance with nothing to do

`Expire` when nothing has expired should leave a manager as it is, and so should `MoveVector` when it has just been called.
For `MoveVector` this is so in any arithmetic. `Expire` takes the vector of every centroid out of the manager's sum and adds it again, also of a
centroid that has lost nothing: in exact arithmetic that is no change, in float64 it is one.
-/

set_option linter.unusedSectionVars false

namespace Trypo
open GoFloat Spec
variable {F : Type} [GoFloat F] [LawfulCmp F]

namespace RepeatExample
open ServerExample ReadExample

/-- Some calls at nodes 1 and 2, the vector of node 1, and a query. -/
def after (l : List (Request F64)) (o : Api.QueryOpts F64) : Prog F64 (List (List F64) × Answer F64) := do
  let _ ← Prog.each (fun r => r.serve env fac2) (setUp ++ l)
  let a ← Request.serve env fac2 (.vec 1 7)
  let x ← Api.queryDataPoint env [1, 2] (some o)
  pure (x.2.map (fun d => d.vec), a)

end RepeatExample
open ServerExample ReadExample RepeatExample

set_option synthInstance.maxSize 1000 in
/-- C142 is violated: four datapoints that never expire on two nodes. A fast query for `(1, 0)` answers `(2^60, 0)`; after a call of `Expire` at node 1,
which has nothing to remove, it answers `(1, 1)`: the call turned the vector of node 1 from `(1, 0)` into `(0, 0)`, and a node with that vector is not
asked. -/
theorem C142_refuted :
    (∃ r p', (after [] ⟨7, false, [.ofInt 1, .ofInt 0], 1, false⟩).run start 0 = .ok (r, p') ∧
      (r.1, at12 r.2) = (([[.ofInt (2 ^ 60), .ofInt 0]], .vec [.ofInt 1, .ofInt 0]), [dp (2 ^ 60) 0, dp (-2 ^ 60) 0, dp 3 0], [dp 1 1])) ∧
    ∃ r p', (after [.expire 1 7] ⟨7, false, [.ofInt 1, .ofInt 0], 1, false⟩).run start 0 = .ok (r, p') ∧
      (r.1, at12 r.2) = (([[.ofInt 1, .ofInt 1]], .vec [.ofInt 0, .ofInt 0]), [dp (2 ^ 60) 0, dp (-2 ^ 60) 0, dp 3 0], [dp 1 1]) :=
  ⟨exists_of_run (f := fun (r : (List (List F64) × Answer F64) × World F64) => (r.1, at12 r.2)) (by decide +kernel),
    exists_of_run (f := fun (r : (List (List F64) × Answer F64) × World F64) => (r.1, at12 r.2)) (by decide +kernel)⟩

/-! ### `Expire` -/

namespace Manager

theorem wp_expireLoop_still {tk : Nat → Int} (hm : MonoClock tk) :
    ∀ (is : List Nat) (cm : Manager F) (p : Nat), cm.WF → (∀ i ∈ is, i < cm.centroids.length) →
      Go.wp (expireLoop tk is cm) (fun cm' p' => p ≤ p' ∧ ((∀ d ∈ stored cm, ¬ Dead (tk p') d) → Touched cm cm')) p
  | [], cm, p, _, _ => by
    unfold expireLoop
    rw [Go.wp_pure]
    exact ⟨Nat.le_refl _, fun _ => .refl _⟩
  | i :: is, cm, p, hw, hi => by
    unfold expireLoop
    have hc := List.getElem?_eq_getElem (hi i (by simp))
    generalize cm.centroids[i]'(hi i (by simp)) = c at hc
    have hcm := List.mem_of_getElem? hc
    have hsub : ∀ d ∈ c.dps, d ∈ stored cm := fun d hd => List.mem_flatMap.2 ⟨c, hcm, hd⟩
    rw [Go.wp_bind]
    refine Go.wp_mono (wp_onCentroid (tk := tk) hw hc _ (R := fun c' _ _ p' => p ≤ p' ∧
      ((∀ d ∈ c.dps, ¬ Dead (tk p') d) → c' = c)) ?_) (fun r p1 h1 => ?_)
    · rw [Go.wp_bind]
      refine Go.wp_mono (Centroid.wp_expire hm c p) (fun c' p1 h => ?_)
      rw [Go.wp_pure]
      have hok := Centroid.callOK_purged (hw.dim c hcm).2 h
      exact ⟨_, hok, hok.le, fun hd => Purged.same h hd⟩
    · obtain ⟨out, c', e1, e2, e3, e4, e5⟩ := h1
      refine Go.wp_mono (wp_expireLoop_still hm is r.2 p1 e1.wf ?_) (fun s p2 hs => ?_)
      · intro j hj
        rw [e2, upd_centroids, List.length_set]
        exact hi j (by simp [hj])
      · refine ⟨by omega, fun hd => ?_⟩
        obtain rfl := e5 (fun d hd' => not_dead_earlier (hm _ _ hs.1) (hd d (hsub d hd')))
        rw [upd_same hc] at e2
        have ht : Touched cm r.2 := ⟨[c'], by simpa using hcm, e2⟩
        have hst : stored r.2 = stored cm := by unfold stored; rw [ht.centroids]
        exact ht.trans (hs.2 (by rw [hst]; exact hd))

theorem wp_expire_still {tk : Nat → Int} (hm : MonoClock tk) {cm : Manager F} (hw : cm.WF) (p : Nat) :
    Go.wp (cm.expire tk) (fun cm' p' => p ≤ p' ∧ ((∀ d ∈ stored cm, ¬ Dead (tk p') d) → Touched cm cm')) p :=
  wp_expireLoop_still hm _ cm p hw (by simp)

end Manager

/-- C142, `Expire` in any arithmetic: if nothing has expired when the call returns, it changed nothing but the manager's vector. -/
theorem C142_expire_partial {tk : Nat → Int} (hm : MonoClock tk) {cm : Manager F} (hc : ManagerOK cm) (p : Nat) :
    ∃ cm' p', cm.expire tk p = .ok (cm', p') ∧ ((∀ d ∈ stored cm, ¬ Dead (tk p') d) → ∃ u, cm' = { cm with vec := u }) := by
  obtain ⟨r, p', h0, h1⟩ := Go.wp_iff.1 (Manager.wp_expire_still hm hc.wf p)
  exact ⟨r, p', h0, fun h => (h1.2 h).vec⟩

/-- C142, `Expire` in exact arithmetic: if nothing has expired when the call returns, it changed nothing. -/
theorem C142_expire_exact_partial {tk : Nat → Int} (hm : MonoClock tk) {cm : Manager ℝ} (hc : ManagerOK cm) (p : Nat) :
    ∃ cm' p', cm.expire tk p = .ok (cm', p') ∧ ((∀ d ∈ stored cm, ¬ Dead (tk p') d) → cm' = cm) := by
  obtain ⟨r, p', h0, h1⟩ := Go.wp_iff.1 (Manager.wp_expire_still hm hc.wf p)
  exact ⟨r, p', h0, fun h => (h1.2 h).real (fun c h => (hc.dim c h).1)⟩

/-- C142, a call of `Expire` at a node, exact arithmetic: if nothing of the namespace has expired there when the call returns, no node has changed. -/
theorem C142_server_exact_partial {env : Env} (hm : MonoClock env.tk) {D : NS → Nat} {w : World ℝ} (hw : WorldOK D w) (a : Addr) (ns : NS) (p : Nat) :
    ∃ out w' p', (Server.expire env a ns).run w p = .ok ((out, w'), p') ∧
      ((∀ d ∈ storedAt w [a] ns, ¬ Dead (env.tk p') d) → ∀ b ns', w'.get b ns' = w.get b ns') := by
  have key : Go.wp ((Server.expire env a ns).run w) (fun r p' => (∀ d ∈ storedAt w [a] ns, ¬ Dead (env.tk p') d) →
      ∀ b ns', r.2.get b ns' = w.get b ns') p := by
    unfold Server.expire
    cases hg : w.get a ns with
    | none =>
      rw [run_access_none ((get_eq_none_iff hw).1 hg), Go.wp_pure]
      exact fun _ _ _ => rfl
    | some m =>
      obtain ⟨i, hl, hi⟩ := lookup_of_get hw hg
      have hok := hw.mok hi
      rw [run_access_some hl hi, Go.wp_bind, Go.wp_bind]
      refine Go.wp_mono (Manager.wp_expire_still hm hok.wf p) (fun r p' hr => ?_)
      rw [Go.wp_pure, Go.wp_pure]
      intro hd b ns'
      rw [storedAt_one hg] at hd
      have ht := (hr.2 hd).real (fun c h => (hok.wf.dim c h).1)
      by_cases hb : b = a ∧ ns' = ns
      · obtain ⟨rfl, rfl⟩ := hb
        rw [hg, ← ht]
        exact get_put_self hl hi
      · exact get_put_other (m' := r) hw hl hi (b := b) (ns' := ns') (by by_contra h; push Not at h; exact hb h)
  obtain ⟨r, p', h0, h1⟩ := Go.wp_iff.1 key
  exact ⟨r.1, r.2, p', h0, h1⟩

/-- In exact arithmetic the nodes `rays` are the same after a call of `Expire`. -/
example (p : Nat) : ∃ out w' p', (Server.expire env 1 7).run ApproxExample.rays p = .ok ((out, w'), p') ∧
    ∀ b ns, w'.get b ns = ApproxExample.rays.get b ns := by
  obtain ⟨out, w', p', h1, h2⟩ := C142_server_exact_partial env_ok.clock ApproxExample.rays_ok 1 7 p
  refine ⟨out, w', p', h1, h2 (fun d hd => ?_)⟩
  have hst : storedAt ApproxExample.rays [1, 2] 7 = [ApproxExample.rpt 3 0, ApproxExample.rpt 5 0, ApproxExample.rpt 0 2, ApproxExample.rpt 4 4] := rfl
  have hd := storedAt_sub (l' := [1, 2]) (by simp) d hd
  rw [hst] at hd
  simp only [List.mem_cons, List.not_mem_nil, or_false] at hd
  rcases hd with rfl | rfl | rfl | rfl <;> exact fun h => absurd h.1 (by simp [ApproxExample.rpt])

/-! ### `MoveVector` -/

namespace Centroid

/-- The vector of the centroid is what `MoveVector` would make it. -/
def AtMean (c : Centroid F) : Prop :=
  (vecMean (c.dps.map (fun d => d.vec))).2 = true → c.vec = (vecMean (c.dps.map (fun d => d.vec))).1

theorem wp_moveVector_atMean {tk : Nat → Int} (hm : MonoClock tk) (c : Centroid F) (hd : c.DimOK) (p : Nat) :
    Go.wp (c.moveVector tk) (fun r p' => p ≤ p' ∧ AtMean r.2 ∧ (AtMean c → (∀ d ∈ c.dps, ¬ Dead (tk p') d) → r.2 = c)) p := by
  refine Go.wp_mono (wp_moveVector hm c hd p) (fun r p' h => ?_)
  obtain ⟨c1, h1, h2⟩ := h
  have hok := callOK_purged hd h1
  subst h2
  cases hf : (vecMean (c1.dps.map (fun d => d.vec))).2 with
  | true =>
    rw [if_pos (by rfl)]
    refine ⟨hok.le, fun _ => rfl, fun ha hl => ?_⟩
    obtain rfl := Purged.same h1 hl
    show { c1 with vec := _ } = c1
    rw [← ha hf]
  | false =>
    rw [if_neg (by simp)]
    exact ⟨hok.le, fun h => by rw [hf] at h; simp at h, fun _ hl => Purged.same h1 hl⟩

end Centroid

namespace Manager

theorem wp_moveAll_atMean {tk : Nat → Int} (hm : MonoClock tk) : ∀ (cs : List (Centroid F)) (p : Nat), (∀ c ∈ cs, c.DimOK) →
    Go.wp (moveAll tk cs) (fun cs' p' => p ≤ p' ∧ (∀ c ∈ cs', c.AtMean) ∧
      ((∀ c ∈ cs, c.AtMean) → (∀ c ∈ cs, ∀ d ∈ c.dps, ¬ Dead (tk p') d) → cs' = cs)) p
  | [], p, _ => by
    unfold moveAll
    rw [Go.wp_pure]
    exact ⟨Nat.le_refl _, by simp, fun _ _ => rfl⟩
  | c :: cs, p, hd => by
    unfold moveAll
    simp only [Go.wp_bind, Go.wp_pure]
    refine Go.wp_mono (Centroid.wp_moveVector_atMean hm c (hd c (by simp)) p) (fun r p1 hr => ?_)
    refine Go.wp_mono (wp_moveAll_atMean hm cs p1 (fun x hx => hd x (by simp [hx]))) (fun cs' p2 hs => ?_)
    obtain ⟨g1, g2, g3⟩ := hr
    obtain ⟨k1, k2, k3⟩ := hs
    refine ⟨by omega, ?_, fun ha hl => ?_⟩
    · intro x hx
      rcases List.mem_cons.1 hx with rfl | hx
      · exact g2
      · exact k2 x hx
    · rw [g3 (ha c (by simp)) (fun d h => not_dead_earlier (hm _ _ k1) (hl c (by simp) d h)),
        k3 (fun x hx => ha x (by simp [hx])) (fun x hx => hl x (by simp [hx]))]

/-- The vectors of the manager and of its centroids are what `MoveVector` would make them. -/
def AtMean (cm : Manager F) : Prop :=
  (∀ c ∈ cm.centroids, c.AtMean) ∧ ((vecMean cm.centroidVecs).2 = true → cm.vec = (vecMean cm.centroidVecs).1)

theorem wp_moveVector_atMean {tk : Nat → Int} (hm : MonoClock tk) {cm : Manager F} (hw : cm.WF) (p : Nat) :
    Go.wp (cm.moveVector tk) (fun r p' => p ≤ p' ∧ r.2.AtMean ∧ r.1 = (vecMean r.2.centroidVecs).2 ∧
      (cm.AtMean → (∀ d ∈ stored cm, ¬ Dead (tk p') d) → r.2 = cm)) p := by
  unfold moveVector
  rw [Go.wp_bind]
  refine Go.wp_mono (wp_moveAll_atMean hm cm.centroids p (fun c hc => (hw.dim c hc).2)) (fun cs p1 h => ?_)
  obtain ⟨h1, h2, h3⟩ := h
  cases hf : (vecMean (cs.map (fun c => c.vec))).2 with
  | true =>
    simp only [hf, if_true, Go.wp_pure]
    refine ⟨h1, ⟨h2, fun _ => rfl⟩, hf.symm, fun ha hl => ?_⟩
    obtain rfl := h3 ha.1 (fun c hc d hd => hl d (List.mem_flatMap.2 ⟨c, hc, hd⟩))
    show { cm with vec := _ } = cm
    have := ha.2 hf
    unfold centroidVecs at this
    rw [← this]
  | false =>
    simp only [hf, Bool.false_eq_true, if_false, Go.wp_pure]
    refine ⟨h1, ⟨h2, fun h => ?_⟩, hf.symm, fun ha hl => ?_⟩
    · have : (vecMean (cs.map (fun c => c.vec))).2 = true := h
      rw [hf] at this
      simp at this
    · obtain rfl := h3 ha.1 (fun c hc d hd => hl d (List.mem_flatMap.2 ⟨c, hc, hd⟩))
      rfl

end Manager

/-- C142, `MoveVector` of a centroid in any arithmetic: called again, it changes nothing if nothing has expired when the second call returns. -/
theorem C142_move_centroid_partial {tk : Nat → Int} (hm : MonoClock tk) {c c' : Centroid F} (hd : c.DimOK) {p p' : Nat} {b : Bool}
    (h : c.moveVector tk p = .ok ((b, c'), p')) :
    ∃ b' c'' p'', c'.moveVector tk p' = .ok ((b', c''), p'') ∧ ((∀ d ∈ c'.dps, ¬ Dead (tk p'') d) → c'' = c') := by
  obtain ⟨r, q, h0, h1⟩ := Go.wp_iff.1 (Go.wp_and (Centroid.wp_moveVector_atMean hm c hd p) (Centroid.callOK_moveVector hm c hd p))
  rw [h] at h0
  cases h0
  obtain ⟨⟨_, h2, _⟩, h3⟩ := h1
  obtain ⟨r, q, g0, _, _, g1⟩ := Go.wp_iff.1 (Centroid.wp_moveVector_atMean hm c' h3.dim.2 p')
  exact ⟨r.1, r.2, q, g0, g1 h2⟩

/-- C142, `MoveVector` of a manager in any arithmetic: called again, it changes nothing and returns the same if nothing has expired when the second call
returns. -/
theorem C142_move_partial {tk : Nat → Int} (hm : MonoClock tk) {cm cm' : Manager F} (hc : ManagerOK cm) {p p' : Nat} {b : Bool}
    (h : cm.moveVector tk p = .ok ((b, cm'), p')) :
    ∃ b' cm'' p'', cm'.moveVector tk p' = .ok ((b', cm''), p'') ∧ ((∀ d ∈ stored cm', ¬ Dead (tk p'') d) → b' = b ∧ cm'' = cm') := by
  obtain ⟨r, q, h0, h1⟩ := Go.wp_iff.1 (Go.wp_and (Manager.wp_moveVector_atMean hm hc.wf p) (Manager.wp_moveVector hm hc.wf p))
  rw [h] at h0
  cases h0
  obtain ⟨⟨_, h2, h3, _⟩, h4, _⟩ := h1
  obtain ⟨r, q, g0, _, _, g1, g2⟩ := Go.wp_iff.1 (Manager.wp_moveVector_atMean hm h4.wf p')
  refine ⟨r.1, r.2, q, g0, fun hl => ?_⟩
  have e := g2 h2 hl
  exact ⟨by rw [g1, e, ← h3], e⟩

/-- Two datapoints at one centroid with a vector that is not their mean: the first `MoveVector` changes it, the second does not. -/
example : ∃ r p', (do
      let x ← (man [F64.ofInt 9, .ofInt 9] [cen [.ofInt 9, .ofInt 9] [dp 1 0, dp 3 2]]).moveVector env.tk
      let y ← x.2.moveVector env.tk
      pure (x.2.vec, y.2.vec) : Go (List F64 × List F64)) 0 = .ok (r, p') ∧ r = ([.ofInt 2, .ofInt 1], [.ofInt 2, .ofInt 1]) :=
  exists_of_run (f := id) (by decide +kernel)

/-- The manager of `C142_refuted`: `Expire` with nothing to remove makes its vector the zero vector. -/
example : ∃ r p', (do
      let x ← (man [F64.ofInt 1, .ofInt 0] [cen [.ofInt (2 ^ 60), .ofInt 0] [dp (2 ^ 60) 0], cen [.ofInt (-2 ^ 60), .ofInt 0] [dp (-2 ^ 60) 0],
        cen [.ofInt 3, .ofInt 0] [dp 3 0]]).expire env.tk
      pure (x.vec, stored x) : Go (List F64 × List (DataPoint F64))) 0 = .ok (r, p') ∧
    r = ([.ofInt 0, .ofInt 0], [dp (2 ^ 60) 0, dp (-2 ^ 60) 0, dp 3 0]) :=
  exists_of_run (f := id) (by decide +kernel)

end Trypo
