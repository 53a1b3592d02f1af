import Verif.Props.Harvest
import Verif.Props.Approx

/-!
# Queries without `drain`

A query that does not drain is a read: while nothing expires it should leave the nodes as they are, and asked again it should answer the same.
In exact arithmetic it does. In float64 it does not: `KNNLookup` of a manager subtracts the vector of every centroid it reads from the manager's sum
and adds it again.
-/

set_option linter.unusedSectionVars false

namespace Trypo
open GoFloat Spec
variable {F : Type} [GoFloat F] [LawfulCmp F]

namespace ReadExample
open ServerExample

/-- A factory whose centroids are divided at two datapoints. -/
def fac2 : Factory F64 := ⟨10, 2, knnCos, kfnCos⟩

/-- Node 1 gets three centroids, `(2^60, 0)`, `(-2^60, 0)` and `(3, 0)`; node 2 gets one, `(1, 1)`. -/
def setUp : List (Request F64) :=
  [.add 1 7 (dp (-2 ^ 60) 0), .add 1 7 (dp 3 0), .moveVector 1 7, .add 1 7 (dp (2 ^ 60) 0), .moveVector 1 7, .add 2 7 (dp 1 1)]

/-- The same query twice, and the vector of node 1 before, between and after. -/
def asked (o : Api.QueryOpts F64) : Prog F64 ((List (List F64)) × (List (List F64)) × List (Answer F64)) := do
  let _ ← Prog.each (fun r => r.serve env fac2) setUp
  let a ← Request.serve env fac2 (.vec 1 7)
  let x ← Api.queryDataPoint env [1, 2] (some o)
  let b ← Request.serve env fac2 (.vec 1 7)
  let y ← Api.queryDataPoint env [1, 2] (some o)
  pure (x.2.map (fun d => d.vec), y.2.map (fun d => d.vec), [a, b])

end ReadExample
open ServerExample ReadExample

set_option synthInstance.maxSize 1000 in
/-- C129 is violated: four datapoints that never expire on two nodes, no message lost, the same fast query without `drain` twice. The first answer is
`(2^60, 0)`, the second `(1, 1)`: the first query turned the vector of node 1 from `(1, 0)` into `(0, 0)`, and a node with that vector is not asked. -/
theorem C129_refuted : ∃ r p', (asked ⟨7, false, [.ofInt 1, .ofInt 0], 1, false⟩).run start 0 = .ok (r, p') ∧
    (r.1, at12 r.2) = (([[.ofInt (2 ^ 60), .ofInt 0]], [[.ofInt 1, .ofInt 1]], [.vec [.ofInt 1, .ofInt 0], .vec [.ofInt 0, .ofInt 0]]),
      [dp (2 ^ 60) 0, dp (-2 ^ 60) 0, dp 3 0], [dp 1 1]) :=
  exists_of_run (f := fun (r : (List (List F64) × List (List F64) × List (Answer F64)) × World F64) => (r.1, at12 r.2)) (by decide +kernel)

/-! ### What a lookup that does not drain leaves behind -/

namespace Spec

/-- Vectors of centroids taken out of a manager's vector and put back. -/
def Touched (cm cm' : Manager F) : Prop :=
  ∃ read : List (Centroid F), (∀ c ∈ read, c ∈ cm.centroids) ∧ cm' = read.foldl (fun m c => m.updateVec c.vec c.vec) cm

end Spec

theorem foldl_touch (read : List (Centroid F)) : ∀ cm : Manager F, ∃ v,
    read.foldl (fun m c => m.updateVec c.vec c.vec) cm = { cm with vec := v } := by
  induction read with
  | nil => exact fun cm => ⟨cm.vec, rfl⟩
  | cons c cs ih => exact fun cm => by obtain ⟨v, h⟩ := ih (cm.updateVec c.vec c.vec); exact ⟨v, h⟩

theorem Spec.Touched.vec {cm cm' : Manager F} (h : Touched cm cm') : ∃ v, cm' = { cm with vec := v } := by
  obtain ⟨read, _, rfl⟩ := h
  exact foldl_touch read cm

theorem Spec.Touched.centroids {cm cm' : Manager F} (h : Touched cm cm') : cm'.centroids = cm.centroids := by
  obtain ⟨v, rfl⟩ := h.vec
  rfl

theorem Spec.Touched.refl (cm : Manager F) : Touched cm cm := ⟨[], by simp, rfl⟩

theorem Spec.Touched.trans {a b c : Manager F} (h : Touched a b) (h' : Touched b c) : Touched a c := by
  have e := h.centroids
  obtain ⟨x, hx, rfl⟩ := h
  obtain ⟨y, hy, rfl⟩ := h'
  rw [e] at hy
  exact ⟨x ++ y, fun c hc => (List.mem_append.1 hc).elim (hx c) (hy c), by rw [List.foldl_append]⟩

theorem Purged.same {tk : Nat → Int} {i p p' : Nat} {c c' : Centroid F} (h : Centroid.Purged tk i p p' c c')
    (hl : ∀ d ∈ c.dps, ¬ Dead (tk p') d) : c' = c := by
  obtain ⟨removed, h1, h2⟩ := h.steps
  cases h1 with
  | refl => rfl
  | step h hs => exact absurd (h2 _ (by simp)) (hl _ (List.mem_of_getElem? h))

theorem not_dead_earlier {t t' : Int} (h : t ≤ t') {d : DataPoint F} (hd : ¬ Dead t' d) : ¬ Dead t d :=
  fun h' => hd ⟨h'.1, Int.lt_of_lt_of_le h'.2 h⟩

namespace Manager

/-- What a centroid answers. -/
def pick (c : Centroid F) (v : List F) (n : Int) : List (DataPoint F) :=
  match c.knn v (c.dps.map (fun d => d.vec)) n with
  | .ok is => is.filterMap (fun i => c.dps[i]?)
  | .error _ => []

/-- What the centroids at given places answer. -/
def pickFrom (cs : List (Centroid F)) (v : List F) (k : Int) : List Nat → List (DataPoint F) → List (DataPoint F)
  | [], res => res
  | i :: is, res =>
    if k ≤ (res.length : Int) then res
    else match cs[i]? with
      | none => []
      | some c => pickFrom cs v k is (res ++ pick c v (k - res.length))

theorem filterMap_of_map {α β : Type} {f : α → Option β} : ∀ {l : List α} {out : List β}, l.map f = out.map some → l.filterMap f = out
  | [], [], _ => rfl
  | [], _ :: _, h => by simp at h
  | _ :: _, [], h => by simp at h
  | a :: l, b :: out, h => by
    rw [List.map_cons, List.map_cons, List.cons.injEq] at h
    rw [List.filterMap_cons, h.1, filterMap_of_map h.2]

theorem pick_of_effect {tk : Nat → Int} {v : List F} {n : Int} {c c' : Centroid F} {p p' : Nat} {out : List (DataPoint F)}
    (h : Centroid.LookupEffect tk c.knn v n c p out c' p') (hl : ∀ d ∈ c.dps, ¬ Dead (tk p') d) : c' = c ∧ out = pick c v n := by
  obtain ⟨is, h1, h2, _, _, h5⟩ := h
  have e := Purged.same h1 hl
  subst e
  refine ⟨rfl, ?_⟩
  unfold pick
  rw [h2]
  exact (filterMap_of_map h5).symm

theorem upd_same {cm : Manager F} {i : Nat} {c : Centroid F} (h : cm.centroids[i]? = some c) : cm.upd i c.vec c = cm.updateVec c.vec c.vec := by
  obtain ⟨hi, rfl⟩ := List.getElem?_eq_some_iff.1 h
  unfold upd
  rw [List.set_getElem_self]

theorem wp_lookupLoop_read {tk : Nat → Int} (hm : MonoClock tk) (v : List F) (k : Nat) :
    ∀ (is : List Nat) (cm : Manager F) (res : List (DataPoint F)) (p : Nat), cm.WF → (∀ i ∈ is, i < cm.centroids.length) → res.length ≤ k →
      Go.wp (lookupLoop tk v k false is cm res) (fun r p' => p ≤ p' ∧ ((∀ d ∈ stored cm, ¬ Dead (tk p') d) →
        r.1 = pickFrom cm.centroids v k is res ∧ Touched cm r.2)) p
  | [], cm, res, p, _, _, _ => by
    simp only [lookupLoop, Go.wp_pure]
    exact ⟨Nat.le_refl _, fun _ => ⟨rfl, .refl _⟩⟩
  | i :: is, cm, res, p, hw, hi, hl => by
    unfold lookupLoop
    rw [Go.wp_ite]
    refine ⟨fun h => ?_, fun h => ?_⟩
    · rw [Go.wp_pure]
      exact ⟨Nat.le_refl _, fun _ => ⟨by unfold pickFrom; rw [if_pos h], .refl _⟩⟩
    · have hc := List.getElem?_eq_getElem (hi i (by simp))
      generalize cm.centroids[i]'(hi i (by simp)) = c at hc
      have hcm := List.mem_of_getElem? hc
      have hcok : SearchOK c.knn := by rw [(hw.search c hcm).1]; exact hw.good.1
      have hkk : ((k - res.length : Nat) : Int) = (k : Int) - res.length := by omega
      have hsub : ∀ d ∈ c.dps, d ∈ stored cm := fun d hd => List.mem_flatMap.2 ⟨c, hcm, hd⟩
      rw [Go.wp_bind]
      refine Go.wp_mono (wp_onCentroid (tk := tk) hw hc _ (R := fun c' res' _ p' => p ≤ p' ∧ res'.length ≤ k ∧
        ((∀ d ∈ c.dps, ¬ Dead (tk p') d) → c' = c ∧ res' = res ++ pick c v (k - res.length))) ?_) (fun r p1 h1 => ?_)
      · rw [Go.wp_bind, ← hkk]
        refine Go.wp_mono (Go.wp_and (Centroid.wp_knnLookup hm c hcok v (n := ((k - res.length : Nat) : Int)) (by omega) false p)
          (Centroid.callOK_knnLookup hm c hcok (hw.dim c hcm).2 v (k := ((k - res.length : Nat) : Int)) (by omega) false p))
          (fun q p1 hq => ?_)
        obtain ⟨hq, hok, _⟩ := hq
        rw [if_neg (by simp)] at hq
        have hlen := (Centroid.LookupEffect.facts hq).2.2.2.1
        refine Go.wp_mono (wp_lookupTake tk k false q.1 res q.2 p1 (by omega)) (fun s p2 hs => ?_)
        obtain ⟨rfl, rfl⟩ := hs
        refine ⟨_, hok, hok.le, by rw [List.length_append]; omega, fun hd => ?_⟩
        obtain ⟨e1, e2⟩ := pick_of_effect hq hd
        exact ⟨e1, by rw [e2]⟩
      · obtain ⟨out, c', e1, e2, e3, e4, e5, e6⟩ := h1
        refine Go.wp_mono (wp_lookupLoop_read hm v k is r.2 r.1 p1 e1.wf ?_ e5) (fun s p2 hs => ?_)
        · intro j hj
          rw [e2, upd_centroids, List.length_set]
          exact hi j (by simp [hj])
        · refine ⟨by omega, fun hd => ?_⟩
          obtain ⟨rfl, g2⟩ := e6 (fun d hd' => not_dead_earlier (hm _ _ hs.1) (hd d (hsub d hd')))
          rw [upd_same hc] at e2
          have ht : Touched cm r.2 := ⟨[c'], by simpa using hcm, e2⟩
          have hst : stored r.2 = stored cm := by unfold stored; rw [ht.centroids]
          obtain ⟨k1, k2⟩ := hs.2 (by rw [hst]; exact hd)
          refine ⟨?_, ht.trans k2⟩
          rw [k1, ht.centroids, g2]
          conv_rhs => unfold pickFrom
          rw [if_neg h, hc]

/-- The answer of a manager to a lookup while nothing expires. -/
def picked (cm : Manager F) (v : List F) (k : Int) : List (DataPoint F) :=
  match cm.knn v cm.centroidVecs k with
  | .ok is => pickFrom cm.centroids v k is []
  | .error _ => []

theorem wp_knnLookup_read {tk : Nat → Int} (hm : MonoClock tk) {cm : Manager F} (hw : cm.WF) (hs : cm.knn = knnCos) (v : List F) (k : Nat) (p : Nat) :
    Go.wp (cm.knnLookup tk v k false) (fun r p' => p ≤ p' ∧ ((∀ d ∈ stored cm, ¬ Dead (tk p') d) → r.1 = picked cm v k ∧ Touched cm r.2)) p := by
  obtain ⟨near, h1, h2⟩ := knnBrute_kbest v cosineSimilarity false k (cm.centroids.map (fun c => c.vec))
  have h1' : cm.knn v cm.centroidVecs k = .ok near := by rw [hs]; exact h1
  unfold Manager.knnLookup
  simp only [Go.wp_bind, Go.wp_checkMake, Go.wp_lift]
  refine ⟨by omega, near, h1', ?_⟩
  refine Go.wp_mono (wp_lookupLoop_read hm v k near cm [] p hw ?_ (by simp)) (fun r p' hr => ?_)
  · intro i hi
    obtain ⟨s, w, hw, _⟩ := h2.valid i hi
    simpa using (List.getElem?_eq_some_iff.1 hw).1
  · refine ⟨hr.1, fun hd => ?_⟩
    obtain ⟨e1, e2⟩ := hr.2 hd
    refine ⟨?_, e2⟩
    rw [e1]
    unfold picked
    rw [h1']

end Manager

/-- C129, a manager with the search the service uses: while nothing expires, `KNNLookup(v,k,false)` changes nothing but the manager's vector. -/
theorem C129_lookup_partial {tk : Nat → Int} (hm : MonoClock tk) {cm : Manager F} (hc : ManagerOK cm) (hs : cm.knn = knnCos) (v : List F) (k : Nat)
    (p : Nat) : ∃ out cm' p', cm.knnLookup tk v k false p = .ok ((out, cm'), p') ∧
      ((∀ d ∈ stored cm, ¬ Dead (tk p') d) → ∃ u, cm' = { cm with vec := u }) := by
  obtain ⟨r, p', h0, h1⟩ := Go.wp_iff.1 (Manager.wp_knnLookup_read hm hc.wf hs v k p)
  exact ⟨r.1, r.2, p', h0, fun h => (h1.2 h).2.vec⟩

/-- C129, the same lookup twice: while nothing expires, the second answer is the first. -/
theorem C129_again_partial {tk : Nat → Int} (hm : MonoClock tk) {cm : Manager F} (hc : ManagerOK cm) (hs : cm.knn = knnCos) (v : List F) (k : Nat)
    {p p' : Nat} {out : List (DataPoint F)} {cm' : Manager F} (h : cm.knnLookup tk v k false p = .ok ((out, cm'), p')) :
    ∃ out' cm'' p'', cm'.knnLookup tk v k false p' = .ok ((out', cm''), p'') ∧ ((∀ d ∈ stored cm, ¬ Dead (tk p'') d) → out' = out) := by
  obtain ⟨r, q, h0, h1⟩ := Go.wp_iff.1 (Go.wp_and (Manager.wp_knnLookup_read hm hc.wf hs v k p) (Manager.wp_knnLookup hm hc.wf v (k := k) (by omega) false p))
  rw [h] at h0
  cases h0
  obtain ⟨⟨h1, h2⟩, is, _, _, _, h3⟩ := h1
  obtain ⟨r, q, g0, g1, g2⟩ := Go.wp_iff.1 (Manager.wp_knnLookup_read hm h3.eff.wf (h3.eff.same.knn.trans hs) v k p')
  refine ⟨r.1, r.2, q, g0, fun hd => ?_⟩
  obtain ⟨e1, e2⟩ := h2 (fun d hd' => not_dead_earlier (hm _ _ g1) (hd d hd'))
  have hst : stored cm' = stored cm := by unfold stored; rw [e2.centroids]
  obtain ⟨e3, _⟩ := g2 (by rw [hst]; exact hd)
  obtain ⟨u, rfl⟩ := e2.vec
  rw [e3]
  exact e1.symm

theorem touch_real {cm : Manager ℝ} {c : Centroid ℝ} (hd : c.vec.length = cm.vec.length) (hc : cm.centroids ≠ []) :
    cm.updateVec c.vec c.vec = cm := by
  have hn : (cm.centroids.length : ℝ) ≠ 0 := by
    rw [Nat.cast_ne_zero]
    exact fun h => hc (List.length_eq_zero_iff.1 h)
  have key : ∀ (u x : List ℝ) (n : ℝ), n ≠ 0 → x.length = u.length →
      (List.zipWith (fun a b => a + b) (List.zipWith (fun a b => a - b) (u.map (fun y => y * n)) x) x).map (fun y => y / n) = u := by
    intro u
    induction u with
    | nil => intro x n _ _; simp
    | cons y u ih =>
      intro x n hn hx
      cases x with
      | nil => simp at hx
      | cons z x =>
        simp only [List.map_cons, List.zipWith_cons_cons, List.cons.injEq]
        exact ⟨by field_simp; ring, ih x n hn (by simpa using hx)⟩
  have e : (cm.updateVec c.vec c.vec).vec = cm.vec := by
    have h1 : c.vec.length = (List.map (fun y => GoFloat.mul y (GoFloat.ofNat cm.centroids.length)) cm.vec).length := by simpa using hd
    have := key cm.vec c.vec cm.centroids.length hn hd
    simp only [Manager.updateVec, vecDivScalar, vecAdd, vecSub, vecMulScalar]
    simp [hd] at this ⊢
    exact this
  show { cm with vec := (cm.updateVec c.vec c.vec).vec } = cm
  rw [e]

theorem Spec.Touched.real {cm cm' : Manager ℝ} (h : Touched cm cm') (hd : ∀ c ∈ cm.centroids, c.vec.length = cm.vec.length) : cm' = cm := by
  obtain ⟨read, h1, rfl⟩ := h
  induction read with
  | nil => rfl
  | cons c cs ih =>
    have hc := h1 c (by simp)
    rw [List.foldl_cons, touch_real (hd c hc) (List.ne_nil_of_mem hc)]
    exact ih (fun c hc => h1 c (by simp [hc]))

/-- C129 in exact arithmetic: while nothing expires, `KNNLookup(v,k,false)` changes nothing. -/
theorem C129_lookup_exact_partial {tk : Nat → Int} (hm : MonoClock tk) {cm : Manager ℝ} (hc : ManagerOK cm) (hs : cm.knn = knnCos) (v : List ℝ)
    (k : Nat) (p : Nat) : ∃ out cm' p', cm.knnLookup tk v k false p = .ok ((out, cm'), p') ∧ ((∀ d ∈ stored cm, ¬ Dead (tk p') d) → cm' = cm) := by
  obtain ⟨r, p', h0, h1⟩ := Go.wp_iff.1 (Manager.wp_knnLookup_read hm hc.wf hs v k p)
  exact ⟨r.1, r.2, p', h0, fun h => (h1.2 h).2.real (fun c h => (hc.dim c h).1)⟩

/-! ### The service -/

namespace Spec

/-- Every node has the namespaces it had, with managers that differ at most in their vectors, which were touched. -/
def AllTouched (w w' : World F) : Prop :=
  ∀ a ns, (w.get a ns = none ∧ w'.get a ns = none) ∨ ∃ m m', w.get a ns = some m ∧ w'.get a ns = some m' ∧ Touched m m'

end Spec

theorem Spec.AllTouched.refl (w : World F) : AllTouched w w := fun a ns => by
  cases h : w.get a ns with
  | none => exact .inl ⟨rfl, rfl⟩
  | some m => exact .inr ⟨m, m, rfl, rfl, .refl m⟩

theorem Spec.AllTouched.trans {w w' w'' : World F} (h : AllTouched w w') (h' : AllTouched w' w'') : AllTouched w w'' := fun a ns => by
  rcases h a ns with ⟨h1, h2⟩ | ⟨m, m', h1, h2, h3⟩
  · rcases h' a ns with ⟨h4, h5⟩ | ⟨m1, m2, h4, h5, h6⟩
    · exact .inl ⟨h1, h5⟩
    · rw [h2] at h4; cases h4
  · rcases h' a ns with ⟨h4, h5⟩ | ⟨m1, m2, h4, h5, h6⟩
    · rw [h2] at h4; cases h4
    · rw [h2] at h4
      cases h4
      exact .inr ⟨m, m2, h1, h5, h3.trans h6⟩

theorem Spec.AllTouched.storedAt {w w' : World F} (h : AllTouched w w') (l : List Addr) (ns : NS) : Spec.storedAt w' l ns = Spec.storedAt w l ns := by
  unfold Spec.storedAt
  refine List.flatMap_congr (fun a _ => ?_)
  rcases h a ns with ⟨h1, h2⟩ | ⟨m, m', h1, h2, h3⟩
  · rw [h1, h2]
  · rw [h1, h2]
    simp only [stored]
    rw [h3.centroids]

theorem wp_server_read {env : Env} (hm : MonoClock env.tk) {D : NS → Nat} {w : World F} (hw : WorldOK D w) (a : Addr) (ns : NS) (v : List F)
    (k : Nat) (p : Nat) :
    Go.wp ((Server.knnLookup env a ns v k false).run w) (fun r p' => p ≤ p' ∧
      ((∀ d ∈ storedAt w [a] ns, ¬ Dead (env.tk p') d) → AllTouched w r.2)) p := by
  unfold Server.knnLookup
  cases hg : w.get a ns with
  | none =>
    rw [run_access_none ((get_eq_none_iff hw).1 hg), Go.wp_pure]
    exact ⟨Nat.le_refl _, fun _ => .refl w⟩
  | some m =>
    obtain ⟨i, hl, hi⟩ := lookup_of_get hw hg
    have hok := hw.mok hi
    rw [run_access_some hl hi, Go.wp_bind]
    refine Go.wp_mono (Manager.wp_knnLookup_read hm hok.wf hok.knn v k p) (fun r p' hr => ?_)
    rw [Go.wp_pure]
    refine ⟨hr.1, fun hd => ?_⟩
    rw [storedAt_one hg] at hd
    have ht := (hr.2 hd).2
    intro b ns'
    by_cases hb : b = a ∧ ns' = ns
    · obtain ⟨rfl, rfl⟩ := hb
      exact .inr ⟨m, r.2, hg, get_put_self hl hi, ht⟩
    · have := get_put_other (m' := r.2) hw hl hi (b := b) (ns' := ns') (by by_contra h; push Not at h; exact hb h)
      rw [this]
      exact AllTouched.refl w b ns'

theorem wp_client_read {env : Env} (hm : MonoClock env.tk) {D : NS → Nat} {w : World F} (hw : WorldOK D w) (a : Addr) (ns : NS) (v : List F)
    (k : Nat) (p : Nat) :
    Go.wp ((Client.knnLookup env a ns v k false).run w) (fun r p' => p ≤ p' ∧
      ((∀ d ∈ storedAt w [a] ns, ¬ Dead (env.tk p') d) → AllTouched w r.2)) p := by
  unfold Client.knnLookup Client.call
  simp only [run_bind, Go.wp_bind, run_loc, Go.wp_checkMake]
  refine ⟨by omega, ?_⟩
  rw [Go.wp_pure]
  refine wp_sent ?_
  rw [Go.wp_pure]
  cases hup : env.up p a with
  | false =>
    simp only [Bool.false_eq_true, if_false, run_pure, Go.wp_pure]
    exact ⟨by omega, fun _ => .refl w⟩
  | true =>
    simp only [if_true, run_bind, Go.wp_bind]
    refine Go.wp_mono (wp_server_read hm hw a ns v k (p + 1)) (fun r p1 hr => ?_)
    rw [run_loc, Go.wp_bind]
    refine wp_arrived ?_
    rw [Go.wp_pure]
    have hend : p ≤ p1 + 1 ∧ ((∀ d ∈ storedAt w [a] ns, ¬ Dead (env.tk (p1 + 1)) d) → AllTouched w r.2) :=
      ⟨by omega, fun hd => hr.2 (fun d h => not_dead_earlier (hm _ _ (by omega)) (hd d h))⟩
    cases hb : env.back p1 a with
    | false => simp only [Bool.false_eq_true, if_false, run_pure, Go.wp_pure]; exact hend
    | true => simp only [if_true, run_pure, Go.wp_pure]; exact hend

theorem wp_getFrom_read {env : Env} (hm : MonoClock env.tk) {D : NS → Nat} (ns : NS) (v : List F) (n : Nat) :
    ∀ (as : List Addr) (w : World F) (res : List (DataPoint F)) (p : Nat), WorldOK D w → res.length ≤ n →
      Go.wp ((Dps.getFrom env ns v n false as res).run w) (fun r p' => p ≤ p' ∧
        ((∀ d ∈ storedAt w as ns, ¬ Dead (env.tk p') d) → AllTouched w r.2)) p
  | [], w, res, p, hw, _ => by
    unfold Dps.getFrom
    rw [run_pure, Go.wp_pure]
    exact ⟨Nat.le_refl _, fun _ => .refl w⟩
  | a :: as, w, res, p, hw, hl => by
    unfold Dps.getFrom
    rw [run_bind, Go.wp_bind, show (n : Int) - res.length = ((n - res.length : Nat) : Int) by omega]
    refine Go.wp_mono (Go.wp_and (wp_client_read hm hw a ns v (n - res.length) p)
      (wp_client_knn hm hw a ns v (k := ((n - res.length : Nat) : Int)) (by omega) false p)) (fun r p1 h => ?_)
    obtain ⟨⟨h1, h2⟩, _, h3⟩ := h
    have hc := h3.count
    have hlen : (res ++ r.1).length = res.length + r.1.length := List.length_append
    have hhere : ∀ p2, p1 ≤ p2 → (∀ d ∈ storedAt w (a :: as) ns, ¬ Dead (env.tk p2) d) → AllTouched w r.2 := fun p2 hp hd =>
      h2 (fun d h => not_dead_earlier (hm _ _ hp) (hd d (by rw [storedAt_cons]; exact List.mem_append_left _ h)))
    by_cases hfull : (((res ++ r.1).length : Nat) : Int) ≥ n
    · rw [if_pos hfull, run_pure, Go.wp_pure]
      exact ⟨h1, hhere p1 (Nat.le_refl _)⟩
    · rw [if_neg hfull]
      refine Go.wp_mono (wp_getFrom_read hm ns v n as r.2 (res ++ r.1) p1 h3.ok (by omega)) (fun q p2 hq => ?_)
      refine ⟨by omega, fun hd => ?_⟩
      have ht := hhere p2 hq.1 hd
      refine ht.trans (hq.2 (fun d h => hd d ?_))
      rw [ht.storedAt] at h
      rw [storedAt_cons]
      exact List.mem_append_right _ h

theorem wp_get_read {env : Env} (hm : MonoClock env.tk) {D : NS → Nat} {w : World F} (hw : WorldOK D w) (ns : NS) (v : List F) (n : Nat)
    (as : List Addr) (p : Nat) :
    Go.wp ((Dps.getDataPoints env as ns v n false).run w) (fun r p' => p ≤ p' ∧
      ((∀ d ∈ storedAt w as ns, ¬ Dead (env.tk p') d) → AllTouched w r.2)) p := by
  unfold Dps.getDataPoints
  simp only [run_bind, Go.wp_bind, run_loc, Go.wp_checkMake]
  refine ⟨by omega, ?_⟩
  rw [Go.wp_pure]
  exact wp_getFrom_read hm ns v n as w [] p hw (by simp)

theorem storedAt_sub {w : World F} {l l' : List Addr} {ns : NS} (h : ∀ a ∈ l, a ∈ l') : ∀ d ∈ storedAt w l ns, d ∈ storedAt w l' ns := by
  intro d hd
  obtain ⟨a, ha, hd⟩ := List.mem_flatMap.1 hd
  exact List.mem_flatMap.2 ⟨a, h a ha, hd⟩

theorem bestFit_sub {dist : List F → Option F} {asc : Bool} {answers : List (Addr × Option (List F))} {as addrs : List Addr}
    (h : BestFit dist asc answers as) (h1 : (answers.map (fun q => q.1)).Perm addrs) : ∀ a ∈ as, a ∈ addrs := by
  obtain ⟨chosen, rfl, h2, _⟩ := h
  intro a ha
  obtain ⟨q, hq, rfl⟩ := List.mem_map.1 ha
  have h3 := (List.mem_filter.1 (h2.subset (List.mem_map.2 ⟨q, hq, rfl⟩))).1
  exact h1.subset (List.mem_map.2 ⟨_, h3, rfl⟩)

theorem wp_query_read {env : Env} (he : EnvOK env) {D : NS → Nat} {w : World F} (hw : WorldOK D w) (o : Api.QueryOpts F) {n : Nat} (hn : o.n = n)
    (ho : o.drain = false) (addrs : List Addr) (p : Nat) :
    Go.wp ((Api.queryDataPoint env addrs (some o)).run w) (fun r p' => p ≤ p' ∧ r.1.1 = 200 ∧
      ((∀ d ∈ storedAt w addrs o.ns, ¬ Dead (env.tk p') d) → AllTouched w r.2)) p := by
  have key : ∀ (sel : Prog F (List Addr)), Go.wp (sel.run w) (fun r p' => p ≤ p' ∧ r.2 = w ∧ ∀ a ∈ r.1, a ∈ addrs) p →
      Go.wp ((do let as ← sel; Dps.getDataPoints env as o.ns o.vec o.n o.drain : Prog F (List (DataPoint F))).run w) (fun r p' => p ≤ p' ∧
        ((∀ d ∈ storedAt w addrs o.ns, ¬ Dead (env.tk p') d) → AllTouched w r.2)) p := by
    intro sel h
    rw [run_bind, Go.wp_bind]
    refine Go.wp_mono h (fun r p1 hr => ?_)
    obtain ⟨h1, h2, h3⟩ := hr
    rw [h2, hn, ho]
    refine Go.wp_mono (wp_get_read he.clock hw o.ns o.vec n r.1 p1) (fun q p2 hq => ?_)
    exact ⟨by omega, fun hd => hq.2 (fun d h => hd d (storedAt_sub h3 d h))⟩
  unfold Api.queryDataPoint
  simp only [run_bind, Go.wp_bind]
  cases ha : o.accurate with
  | true =>
    simp only [if_true]
    refine Go.wp_mono (key _ (Go.wp_mono (wp_bestAccurate he hw knnCos_searchesBest addrs o.ns o.vec p) (fun r p1 h => ?_))) (fun r p1 h => ?_)
    · obtain ⟨h1, h2, answers, h3, _, h5⟩ := h
      exact ⟨h1, h2, bestFit_sub h5 h3⟩
    · rw [run_pure, Go.wp_pure]
      exact ⟨h.1, rfl, h.2⟩
  | false =>
    simp only [Bool.false_eq_true, if_false]
    refine Go.wp_mono (key _ (Go.wp_mono (wp_bestFast he hw knnCos_searchesBest addrs o.ns o.vec p) (fun r p1 h => ?_))) (fun r p1 h => ?_)
    · obtain ⟨h1, h2, answers, h3, _, h5⟩ := h
      exact ⟨h1, h2, bestFit_sub h5 h3⟩
    · rw [run_pure, Go.wp_pure]
      exact ⟨h.1, rfl, h.2⟩

/-- C129, the HTTP endpoint: while nothing expires, a query without `drain` changes no manager of any node in anything but its vector. Messages may be
lost. -/
theorem C129_query_partial {env : Env} (he : EnvOK env) {D : NS → Nat} {w : World F} (hw : WorldOK D w) (o : Api.QueryOpts F) {n : Nat} (hn : o.n = n)
    (ho : o.drain = false) (addrs : List Addr) (p : Nat) :
    ∃ out w' p', (Api.queryDataPoint env addrs (some o)).run w p = .ok (((200, out), w'), p') ∧
      ((∀ d ∈ storedAt w addrs o.ns, ¬ Dead (env.tk p') d) →
        ∀ a ns, (w'.get a ns).map (fun m => { m with vec := [] }) = (w.get a ns).map (fun m => { m with vec := [] })) := by
  obtain ⟨r, p', h0, _, h1, h2⟩ := Go.wp_iff.1 (wp_query_read he hw o hn ho addrs p)
  refine ⟨r.1.2, r.2, p', ?_, fun hd a ns => ?_⟩
  · rw [h0, ← h1]
  · rcases h2 hd a ns with ⟨e1, e2⟩ | ⟨m, m', e1, e2, e3⟩
    · rw [e1, e2]
    · obtain ⟨u, rfl⟩ := e3.vec
      rw [e1, e2]
      rfl

/-- C129 in exact arithmetic: while nothing expires, a query without `drain` changes nothing. -/
theorem C129_query_exact_partial {env : Env} (he : EnvOK env) {D : NS → Nat} {w : World ℝ} (hw : WorldOK D w) (o : Api.QueryOpts ℝ) {n : Nat}
    (hn : o.n = n) (ho : o.drain = false) (addrs : List Addr) (p : Nat) :
    ∃ out w' p', (Api.queryDataPoint env addrs (some o)).run w p = .ok (((200, out), w'), p') ∧
      ((∀ d ∈ storedAt w addrs o.ns, ¬ Dead (env.tk p') d) → ∀ a ns, w'.get a ns = w.get a ns) := by
  obtain ⟨r, p', h0, _, h1, h2⟩ := Go.wp_iff.1 (wp_query_read he hw o hn ho addrs p)
  refine ⟨r.1.2, r.2, p', ?_, fun hd a ns => ?_⟩
  · rw [h0, ← h1]
  · rcases h2 hd a ns with ⟨e1, e2⟩ | ⟨m, m', e1, e2, e3⟩
    · rw [e1, e2]
    · obtain ⟨i, _, hi⟩ := lookup_of_get hw e1
      rw [e1, e2, e3.real (fun c h => ((hw.mok hi).wf.dim c h).1)]

theorem storedAt_of_same {w w' : World F} {ns : NS}
    (h : ∀ a, (w'.get a ns).map (fun m => { m with vec := [] }) = (w.get a ns).map (fun m => { m with vec := [] })) (l : List Addr) :
    storedAt w' l ns = storedAt w l ns := by
  unfold storedAt
  refine List.flatMap_congr (fun a _ => ?_)
  have := congrArg (fun o => match o with | some m => stored m | none => []) (h a)
  cases h1 : w.get a ns with
  | none => cases h2 : w'.get a ns <;> simp [h1, h2] at this ⊢; simpa [stored] using this
  | some m => cases h2 : w'.get a ns <;> simpa [h1, h2, stored] using this

/-- Nothing the example nodes hold expires: whatever is asked, they hold the same afterwards. -/
example (v : List F64) (accurate : Bool) (n : Nat) (p : Nat) : ∃ out w' p', (Api.queryDataPoint env [1, 2] (some ⟨7, accurate, v, n, false⟩)).run two p =
    .ok (((200, out), w'), p') ∧ storedAt w' [1, 2] 7 = [dp 1 0, dp 2 0, dp 0 1] := by
  obtain ⟨out, w', p', h1, h2⟩ := C129_query_partial env_ok two_ok ⟨7, accurate, v, n, false⟩ (n := n) rfl rfl [1, 2] p
  have hst : storedAt two [1, 2] 7 = [dp 1 0, dp 2 0, dp 0 1] := rfl
  refine ⟨out, w', p', h1, ?_⟩
  rw [← hst]
  refine storedAt_of_same (fun a => h2 (fun d hd => ?_) a 7) _
  rw [hst] at hd
  simp only [List.mem_cons, List.not_mem_nil, or_false] at hd
  rcases hd with rfl | rfl | rfl <;> exact fun h => absurd h.1 (by simp [dp])

/-- In exact arithmetic the nodes `rays` are the same after any query that does not drain. -/
example (x y : ℝ) (accurate : Bool) (n : Nat) (p : Nat) : ∃ out w' p',
    (Api.queryDataPoint env [1, 2] (some ⟨7, accurate, [x, y], n, false⟩)).run ApproxExample.rays p = .ok (((200, out), w'), p') ∧
      ∀ a ns, w'.get a ns = ApproxExample.rays.get a ns := by
  obtain ⟨out, w', p', h1, h2⟩ := C129_query_exact_partial env_ok ApproxExample.rays_ok ⟨7, accurate, [x, y], n, false⟩ (n := n) rfl rfl [1, 2] p
  refine ⟨out, w', p', h1, h2 (fun d hd => ?_)⟩
  have hst : storedAt ApproxExample.rays [1, 2] 7 = [ApproxExample.rpt 3 0, ApproxExample.rpt 5 0, ApproxExample.rpt 0 2, ApproxExample.rpt 4 4] := rfl
  rw [hst] at hd
  simp only [List.mem_cons, List.not_mem_nil, or_false] at hd
  rcases hd with rfl | rfl | rfl | rfl <;> exact fun h => absurd h.1 (by simp [ApproxExample.rpt])

/-- The two queries of `C129_refuted` as lookups at one manager: its vector is lost, its answers are not. -/
example : ∃ r p', (do
      let x ← (man [F64.ofInt 1, .ofInt 0] [cen [.ofInt (2 ^ 60), .ofInt 0] [dp (2 ^ 60) 0], cen [.ofInt (-2 ^ 60), .ofInt 0] [dp (-2 ^ 60) 0],
        cen [.ofInt 3, .ofInt 0] [dp 3 0]]).knnLookup env.tk [.ofInt 1, .ofInt 0] 1 false
      let y ← x.2.knnLookup env.tk [.ofInt 1, .ofInt 0] 1 false
      pure (x.1, y.1, y.2.vec) : Go (List (DataPoint F64) × List (DataPoint F64) × List F64)) 0 = .ok (r, p') ∧
    r = ([dp (2 ^ 60) 0], [dp (2 ^ 60) 0], [.ofInt 0, .ofInt 0]) :=
  exists_of_run (f := id) (by decide +kernel)

end Trypo
