import Verif.Props.ReadOnly

/-!
# Property C131: asking for more than there is

A query for more datapoints than the nodes can return does exactly what any other such query does: the same answer in the same order, the same
effects, the same messages. So the number asked for may be cut down to what is stored before it is used as the size of an allocation (C132).
-/

set_option linter.unusedSectionVars false

namespace Trypo
open GoFloat Spec
variable {F : Type} [GoFloat F] [LawfulCmp F]

theorem Go.bind_congr_of_wp {α β : Type} {m : Go α} {Q : α → Nat → Prop} {p : Nat} {f g : α → Go β} (h : Go.wp m Q p)
    (hfg : ∀ a p', Q a p' → f a p' = g a p') : (m >>= f) p = (m >>= g) p := by
  obtain ⟨a, p', h0, h1⟩ := Go.wp_iff.1 h
  show (m p >>= fun r => f r.1 r.2) = (m p >>= fun r => g r.1 r.2)
  rw [h0]
  exact hfg a p' h1

theorem Go.bind_congr_left {α β : Type} {m m' : Go α} {p : Nat} (f : α → Go β) (h : m p = m' p) : (m >>= f) p = (m' >>= f) p := by
  show (m p >>= fun r => f r.1 r.2) = (m' p >>= fun r => f r.1 r.2)
  rw [h]

/-! ## Searches -/

theorem bubble_unset {u : ResultItem F} : ∀ (m : Nat) (asc : Bool), bubble u (List.replicate m u) asc = List.replicate m u
  | 0, _ => rfl
  | m + 1, asc => by
    rw [List.replicate_succ]
    unfold bubble
    simp [bubble_unset m asc]

theorem bubble_room {u : ResultItem F} (hu : u.set = false) (asc : Bool) : ∀ (xs : List (ResultItem F)) (x : ResultItem F), x.set = true →
    (∀ y ∈ xs, y.set = true) → ∃ ys, (∀ y ∈ ys, y.set = true) ∧ ys.length = xs.length + 1 ∧
      ∀ m, bubble x (xs ++ List.replicate (m + 1) u) asc = ys ++ List.replicate m u
  | [], x, hx, _ => by
    refine ⟨[x], by simpa using hx, rfl, fun m => ?_⟩
    rw [List.nil_append, List.replicate_succ]
    unfold bubble
    cases asc <;> simp [hu, bubble_unset]
  | y :: xs, x, hx, hxs => by
    have hy := hxs y (by simp)
    have hr : ∀ z ∈ xs, z.set = true := fun z hz => hxs z (by simp [hz])
    by_cases hs : ((lt y.score x.score && !asc) || (lt x.score y.score && asc)) = true
    · obtain ⟨ys, h1, h2, h3⟩ := bubble_room hu asc xs y hy hr
      refine ⟨x :: ys, by simpa [hx] using h1, by simp [h2], fun m => ?_⟩
      rw [List.cons_append]
      unfold bubble
      cases asc <;> simp_all
    · obtain ⟨ys, h1, h2, h3⟩ := bubble_room hu asc xs x hx hr
      refine ⟨y :: ys, by simpa [hy] using h1, by simp [h2], fun m => ?_⟩
      rw [List.cons_append]
      unfold bubble
      cases asc <;> simp_all

theorem knnLoop_room (target : List F) (dist : List F → List F → Option F) (asc : Bool) {u : ResultItem F} (hu : u.set = false) :
    ∀ (pool : List (List F)) (i : Nat) (xs : List (ResultItem F)), (∀ y ∈ xs, y.set = true) → ∃ ys, (∀ y ∈ ys, y.set = true) ∧
      ∀ m, ∃ m', knnLoop target dist asc (xs ++ List.replicate (m + pool.length) u) i pool = ys ++ List.replicate m' u
  | [], i, xs, h => ⟨xs, h, fun m => ⟨m, by simp [knnLoop]⟩⟩
  | v :: pool, i, xs, h => by
    cases hd : dist target v with
    | none =>
      obtain ⟨ys, h1, h2⟩ := knnLoop_room target dist asc hu pool (i + 1) xs h
      refine ⟨ys, h1, fun m => ?_⟩
      obtain ⟨m', hm'⟩ := h2 (m + 1)
      refine ⟨m', ?_⟩
      unfold knnLoop
      rw [hd, ← hm']
      simp only [List.length_cons]
      rw [show m + (pool.length + 1) = m + 1 + pool.length by omega]
    | some s =>
      by_cases hc : (if asc then lt s (worstScore asc) else lt (worstScore asc) s) = true
      · obtain ⟨zs, g1, _, g3⟩ := bubble_room hu asc xs ⟨i, s, true⟩ rfl h
        obtain ⟨ys, h1, h2⟩ := knnLoop_room target dist asc hu pool (i + 1) zs g1
        refine ⟨ys, h1, fun m => ?_⟩
        obtain ⟨m', hm'⟩ := h2 m
        refine ⟨m', ?_⟩
        unfold knnLoop
        rw [hd, ← hm', ← g3, List.length_cons, ← Nat.add_assoc]
        cases asc <;> simp_all
      · obtain ⟨ys, h1, h2⟩ := knnLoop_room target dist asc hu pool (i + 1) xs h
        refine ⟨ys, h1, fun m => ?_⟩
        obtain ⟨m', hm'⟩ := h2 (m + 1)
        refine ⟨m', ?_⟩
        unfold knnLoop
        rw [hd, ← hm', List.length_cons, show m + (pool.length + 1) = m + 1 + pool.length by omega]
        cases asc <;> simp_all

/-- C131, `KNNBrute`: every count that is not below the number of candidates gives the same result. -/
theorem C131_search (target : List F) (pool : List (List F)) (asc : Bool) (dist : List F → List F → Option F) {k k' : Int}
    (h : (pool.length : Int) ≤ k) (h' : (pool.length : Int) ≤ k') : knnBrute target pool k asc dist = knnBrute target pool k' asc dist := by
  obtain ⟨ys, h1, h2⟩ := knnLoop_room target dist asc (u := ⟨0, worstScore asc, false⟩) rfl pool 0 [] (by simp)
  have key : ∀ j : Int, (pool.length : Int) ≤ j → knnBrute target pool j asc dist = .ok (resItems2Indexes ys) := by
    intro j hj
    obtain ⟨m, rfl⟩ : ∃ m : Nat, j = ((m + pool.length : Nat) : Int) := ⟨j.toNat - pool.length, by omega⟩
    obtain ⟨m', hm'⟩ := h2 m
    rw [List.nil_append] at hm'
    unfold knnBrute
    rw [if_neg (by omega), Int.toNat_natCast, hm']
    unfold resItems2Indexes
    rw [List.filter_append]
    simp
  rw [key k h, key k' h']

/-! ## Centroids and managers -/

namespace Centroid

theorem knnLookup_enough {tk : Nat → Int} (hm : MonoClock tk) {c : Centroid F} (hs : c.knn = knnCos) (v : List F) (drain : Bool) {k k' : Int}
    (h : (c.dps.length : Int) ≤ k) (h' : (c.dps.length : Int) ≤ k') (p : Nat) : c.knnLookup tk v k drain p = c.knnLookup tk v k' drain p := by
  have hmk : ∀ j : Int, (c.dps.length : Int) ≤ j → Go.checkMake j = pure () := fun j hj => by unfold Go.checkMake; rw [if_neg (by omega)]
  unfold knnLookup
  rw [hmk k h, hmk k' h', pure_bind, pure_bind]
  refine Go.bind_congr_of_wp (wp_genAll hm _ c 0 p (by omega)) (fun g p1 hg => ?_)
  have hg1 : g.1.length ≤ c.dps.length := by
    obtain ⟨_, h7, _⟩ := hg.1.steps
    rw [hg.2]
    simpa using h7.sublist.length_le
  rw [hs]
  show (Go.lift (knnBrute v g.1 k false cosineSimilarity) >>= _) p1 = (Go.lift (knnBrute v g.1 k' false cosineSimilarity) >>= _) p1
  rw [C131_search v g.1 false cosineSimilarity (k := k) (k' := k') (by omega) (by omega)]

end Centroid

namespace Manager

theorem lookupLoop_enough {tk : Nat → Int} (hm : MonoClock tk) (v : List F) (drain : Bool) {k k' : Int} :
    ∀ (is : List Nat) (cm : Manager F) (res : List (DataPoint F)) (p : Nat), cm.WF → cm.knn = knnCos → (∀ i ∈ is, i < cm.centroids.length) →
      ((res.length + (is.flatMap (atD cm.centroids)).length : Nat) : Int) < k → ((res.length + (is.flatMap (atD cm.centroids)).length : Nat) : Int) < k' →
      lookupLoop tk v k drain is cm res p = lookupLoop tk v k' drain is cm res p
  | [], cm, res, p, _, _, _, _, _ => by unfold lookupLoop; rfl
  | i :: is, cm, res, p, hw, hs, hi, h, h' => by
    have hc := List.getElem?_eq_getElem (hi i (by simp))
    generalize cm.centroids[i]'(hi i (by simp)) = c at hc
    have hcm := List.mem_of_getElem? hc
    have hcs : c.knn = knnCos := (hw.search c hcm).1.trans hs
    have hsrch : SearchOK c.knn := by rw [(hw.search c hcm).1]; exact hw.good.1
    simp only [List.flatMap_cons, List.length_append, atD_get hc] at h h'
    have hq : ∀ j : Int, (c.dps.length : Int) ≤ j → Go.wp (c.knnLookup tk v j drain) (fun q p' => q.1.length ≤ c.dps.length ∧
        q.2.dps.length ≤ c.dps.length ∧ ∃ out, Centroid.CallOK tk p p' c q.2 [] out) p := by
      intro j hj
      refine Go.wp_mono (Go.wp_and (Centroid.wp_knnLookup hm c hsrch v (n := j) (by omega) drain p)
        (Centroid.callOK_knnLookup hm c hsrch (hw.dim c hcm).2 v (k := j) (by omega) drain p)) (fun q p' hq => ?_)
      obtain ⟨hq, hok, _⟩ := hq
      cases drain with
      | true =>
        rw [if_pos rfl] at hq
        obtain ⟨h1, ⟨removed, h2⟩, ⟨lost, h3, _⟩, h4, h5, h6⟩ := Centroid.DrainEffect.facts hq
        refine ⟨?_, h2.sublist.length_le, _, hok⟩
        have := h3.length_eq
        simp only [List.length_append] at this
        omega
      | false =>
        rw [if_neg (by simp)] at hq
        obtain ⟨h1, h2, h3, h4, h5, rest, h6⟩ := Centroid.LookupEffect.facts hq
        obtain ⟨removed, h7, _⟩ := h2.steps
        have := h6.length_eq
        have h8 := h7.sublist.length_le
        simp only [List.length_append] at this
        exact ⟨by omega, h8, _, hok⟩
    have e1 : cm.onCentroid i (fun c => do
          let q ← c.knnLookup tk v (k - res.length) drain
          lookupTake tk k drain q.1 res q.2) p = cm.onCentroid i (fun c => do
          let q ← c.knnLookup tk v (k' - res.length) drain
          lookupTake tk k' drain q.1 res q.2) p := by
      unfold onCentroid
      refine Go.bind_congr_of_wp (Q := fun a p' => a = c ∧ p' = p) (by rw [Go.wp_idx]; exact ⟨c, hc, rfl, rfl⟩) (fun a p' ha => ?_)
      obtain ⟨rfl, rfl⟩ := ha
      refine Go.bind_congr_left _ ?_
      refine (Go.bind_congr_left _ (Centroid.knnLookup_enough hm hcs v drain (k := k - res.length) (k' := k' - res.length) (by omega) (by omega) p')).trans ?_
      refine Go.bind_congr_of_wp (hq _ (by omega)) (fun q p1 hq => ?_)
      obtain ⟨r1, p2, t0, t2, t1⟩ := Go.wp_iff.1 (wp_lookupTake tk k drain q.1 res q.2 p1 (by omega))
      obtain ⟨r2, p3, s0, s2, s1⟩ := Go.wp_iff.1 (wp_lookupTake tk k' drain q.1 res q.2 p1 (by omega))
      rw [t0, s0, t1, s1, t2, s2]
    unfold lookupLoop
    rw [if_neg (by omega), if_neg (by omega)]
    refine (Go.bind_congr_left _ e1).trans ?_
    refine Go.bind_congr_of_wp (wp_onCentroid (tk := tk) hw hc _ (R := fun c' res' _ _ => c'.dps.length ≤ c.dps.length ∧
      res'.length ≤ res.length + c.dps.length) ?_) (fun r p1 hr => ?_)
    · rw [Go.wp_bind]
      refine Go.wp_mono (hq _ (by omega)) (fun q p1 hq => ?_)
      obtain ⟨q1, q2, out, q3⟩ := hq
      refine Go.wp_mono (wp_lookupTake tk k' drain q.1 res q.2 p1 (by omega)) (fun s p2 hs => ?_)
      obtain ⟨rfl, rfl⟩ := hs
      exact ⟨out, q3, q2, by rw [List.length_append]; omega⟩
    · obtain ⟨out, c', g1, g2, g3, g4, g5⟩ := hr
      have hle : (is.flatMap (atD r.2.centroids)).length ≤ (is.flatMap (atD cm.centroids)).length := by
        rw [List.length_flatMap, List.length_flatMap]
        refine List.sum_le_sum (fun j _ => ?_)
        rw [g2, upd_centroids]
        by_cases hj : j = i
        · subst hj
          rw [atD_get hc]
          unfold atD
          rw [List.getElem?_set_self (List.getElem?_eq_some_iff.1 hc).1]
          exact g4
        · unfold atD
          rw [List.getElem?_set_ne (fun h : i = j => hj h.symm)]
      refine lookupLoop_enough hm v drain is r.2 r.1 p1 g1.wf (by rw [g2]; exact hs) (fun j hj => ?_) ?_ ?_
      · rw [g2, upd_centroids, List.length_set]
        exact hi j (by simp [hj])
      · omega
      · omega

theorem chosen_le {cm : Manager F} {is : List Nat} (hn : is.Nodup) (hi : ∀ i ∈ is, i < cm.centroids.length) :
    (is.flatMap (atD cm.centroids)).length ≤ (stored cm).length := by
  show _ ≤ (Centroid.flat cm.centroids).length
  rw [flat_range, List.length_flatMap, List.length_flatMap]
  have hs : is.Subperm (List.range cm.centroids.length) := List.subperm_of_subset hn (fun i h => List.mem_range.2 (hi i h))
  obtain ⟨l, h1, h2⟩ := hs
  rw [← (h1.map _).sum_eq]
  exact (h2.map _).sum_le_sum (fun _ _ => Nat.zero_le _)

theorem Shrinks.stored_le {a b : Manager F} (h : Shrinks a b) : (stored b).length ≤ (stored a).length := by
  show (Centroid.flat b.centroids).length ≤ (Centroid.flat a.centroids).length
  rw [flat_range, flat_range, List.length_flatMap, List.length_flatMap, h.length]
  refine List.sum_le_sum (fun i hi => ?_)
  have hc := List.getElem?_eq_getElem (List.mem_range.1 hi)
  obtain ⟨c', h1, h2⟩ := h.pointwise hc
  rw [atD_get hc, atD_get h1]
  exact h2.length_le

/-- What a manager can return: at most its datapoints; and it is asked for at least one per centroid. -/
def size (cm : Manager F) : Nat := (stored cm).length + cm.centroids.length

theorem knnLookup_enough {tk : Nat → Int} (hm : MonoClock tk) {cm : Manager F} (hw : cm.WF) (hs : cm.knn = knnCos) (v : List F) (drain : Bool) {k k' : Int}
    (h : (cm.size : Int) < k) (h' : (cm.size : Int) < k') (p : Nat) : cm.knnLookup tk v k drain p = cm.knnLookup tk v k' drain p := by
  unfold size at h h'
  have hmk : ∀ j : Int, 0 ≤ j → Go.checkMake j = pure () := fun j hj => by unfold Go.checkMake; rw [if_neg (by omega)]
  unfold knnLookup
  rw [hmk k (by omega), hmk k' (by omega), pure_bind, pure_bind]
  have e : cm.knn v cm.centroidVecs k = cm.knn v cm.centroidVecs k' := by
    rw [hs]
    exact C131_search v cm.centroidVecs false cosineSimilarity (by simp [centroidVecs]; omega) (by simp [centroidVecs]; omega)
  rw [e]
  obtain ⟨r, h1, h2, h3, h4⟩ := hw.good.1 v cm.centroidVecs k' (by omega)
  have hr : ∀ i ∈ r, i < cm.centroids.length := by
    intro i hi; have := h3 i hi; rwa [centroidVecs, List.length_map] at this
  refine Go.bind_congr_of_wp (Q := fun a _ => a = r) (by rw [Go.wp_lift]; exact ⟨r, h1, rfl⟩) (fun a p' ha => ?_)
  subst ha
  have hlen : (a.flatMap (atD cm.centroids)).length ≤ (stored cm).length := chosen_le h2 hr
  exact lookupLoop_enough hm v drain a cm [] p' hw hs hr (by simp only [List.length_nil]; omega) (by simp only [List.length_nil]; omega)

theorem wp_knnLookup_size {tk : Nat → Int} (hm : MonoClock tk) {cm : Manager F} (hw : cm.WF) (v : List F) {k : Int} (hk : 0 ≤ k)
    (drain : Bool) (p : Nat) : Go.wp (cm.knnLookup tk v k drain) (fun r _ => r.1.length ≤ cm.size ∧ r.2.size ≤ cm.size) p := by
  refine Go.wp_mono (wp_knnLookup hm hw v hk drain p) (fun r p' hr => ?_)
  obtain ⟨is, h1, h2, h3, h4⟩ := hr
  have hlen : (is.flatMap (atD cm.centroids)).length ≤ (stored cm).length := chosen_le h2 h3
  obtain ⟨rest, h5⟩ := h4.before
  have h6 := h5.length_eq
  simp only [List.length_append] at h6
  unfold size
  refine ⟨by omega, ?_⟩
  have := h4.shrinks.length
  have hst : (stored r.2).length ≤ (stored cm).length := h4.shrinks.stored_le
  omega

end Manager

/-! ## Nodes and queries -/

/-- What the nodes can return of a namespace, and their centroids. -/
def Spec.sizeAt (w : World F) (nodes : List Addr) (ns : NS) : Nat :=
  (nodes.map (fun a => match w.get a ns with | some m => (stored m).length + m.centroids.length | none => 0)).sum

theorem server_knn_enough {env : Env} (hm : MonoClock env.tk) {D : NS → Nat} {w : World F} (hw : WorldOK D w) (a : Addr) (ns : NS) (v : List F)
    (drain : Bool) {k k' : Int} (h : (sizeAt w [a] ns : Int) < k) (h' : (sizeAt w [a] ns : Int) < k') (p : Nat) :
    (Server.knnLookup env a ns v k drain).run w p = (Server.knnLookup env a ns v k' drain).run w p := by
  unfold Server.knnLookup
  cases hg : w.get a ns with
  | none => rw [run_access_none ((get_eq_none_iff hw).1 hg), run_access_none ((get_eq_none_iff hw).1 hg)]
  | some m =>
    obtain ⟨i, hl, hi⟩ := lookup_of_get hw hg
    have hok := hw.mok hi
    rw [run_access_some hl hi, run_access_some hl hi]
    simp only [sizeAt, List.map_cons, List.map_nil, hg, List.sum_cons, List.sum_nil, Nat.add_zero] at h h'
    exact Go.bind_congr_left _ (Manager.knnLookup_enough hm hok.wf hok.knn v drain h h' p)

/-- No node holds more afterwards. -/
def NoLarger (w w' : World F) : Prop := ∀ b ns, sizeAt w' [b] ns ≤ sizeAt w [b] ns

theorem wp_server_knn_size {env : Env} (hm : MonoClock env.tk) {D : NS → Nat} {w : World F} (hw : WorldOK D w) (a : Addr) (ns : NS) (v : List F)
    (drain : Bool) {k : Int} (hk : 0 ≤ k) (p : Nat) :
    Go.wp ((Server.knnLookup env a ns v k drain).run w) (fun r _ => (r.1.getD []).length ≤ sizeAt w [a] ns ∧ NoLarger w r.2) p := by
  unfold Server.knnLookup
  cases hg : w.get a ns with
  | none =>
    rw [run_access_none ((get_eq_none_iff hw).1 hg), Go.wp_pure]
    exact ⟨by simp, fun _ _ => Nat.le_refl _⟩
  | some m =>
    obtain ⟨i, hl, hi⟩ := lookup_of_get hw hg
    have hok := hw.mok hi
    rw [run_access_some hl hi, Go.wp_bind]
    refine Go.wp_mono (Manager.wp_knnLookup_size hm hok.wf v hk drain p) (fun r p' hr => ?_)
    rw [Go.wp_pure]
    refine ⟨by simpa [sizeAt, hg, Manager.size] using hr.1, fun b ns' => ?_⟩
    by_cases hb : b = a ∧ ns' = ns
    · obtain ⟨rfl, rfl⟩ := hb
      have e := get_put_self (m' := r.2) hl hi
      simpa [sizeAt, hg, e, Manager.size] using hr.2
    · have := get_put_other (m' := r.2) hw hl hi (b := b) (ns' := ns') (by by_contra h; push Not at h; exact hb h)
      simp only [sizeAt, List.map_cons, List.map_nil, this]
      exact Nat.le_refl _

theorem client_knn_enough {env : Env} (hm : MonoClock env.tk) {D : NS → Nat} {w : World F} (hw : WorldOK D w) (a : Addr) (ns : NS) (v : List F)
    (drain : Bool) {k k' : Int} (h : (sizeAt w [a] ns : Int) < k) (h' : (sizeAt w [a] ns : Int) < k') (p : Nat) :
    (Client.knnLookup env a ns v k drain).run w p = (Client.knnLookup env a ns v k' drain).run w p := by
  have hmk : ∀ j : Int, 0 ≤ j → Go.checkMake j = pure () := fun j hj => by unfold Go.checkMake; rw [if_neg (by omega)]
  unfold Client.knnLookup Client.call
  simp only [run_bind, run_loc]
  rw [hmk k (by omega), hmk k' (by omega)]
  simp only [pure_bind, bind_assoc]
  refine Go.bind_congr_of_wp (wp_sent (Q := fun b p' => b = env.up p a ∧ p' = p + 1) ⟨rfl, rfl⟩) (fun b p' hb => ?_)
  obtain ⟨rfl, rfl⟩ := hb
  cases hup : env.up p a with
  | false => simp
  | true =>
    simp only [if_true, run_bind, bind_assoc]
    exact Go.bind_congr_left _ (server_knn_enough hm hw a ns v drain h h' (p + 1))

theorem wp_client_knn_size {env : Env} (hm : MonoClock env.tk) {D : NS → Nat} {w : World F} (hw : WorldOK D w) (a : Addr) (ns : NS) (v : List F)
    (drain : Bool) {k : Int} (hk : 0 ≤ k) (p : Nat) :
    Go.wp ((Client.knnLookup env a ns v k drain).run w) (fun r _ => r.1.length ≤ sizeAt w [a] ns ∧ NoLarger w r.2) p := by
  unfold Client.knnLookup Client.call
  simp only [run_bind, Go.wp_bind, run_loc, Go.wp_checkMake]
  refine ⟨hk, ?_⟩
  rw [Go.wp_pure]
  refine wp_sent ?_
  rw [Go.wp_pure]
  cases hup : env.up p a with
  | false =>
    simp only [Bool.false_eq_true, if_false, run_pure, Go.wp_pure]
    exact ⟨by simp, fun _ _ => Nat.le_refl _⟩
  | true =>
    simp only [if_true, run_bind, Go.wp_bind]
    refine Go.wp_mono (wp_server_knn_size hm hw a ns v drain hk (p + 1)) (fun r p1 hr => ?_)
    rw [run_loc, Go.wp_bind]
    refine wp_arrived ?_
    rw [Go.wp_pure]
    cases hb : env.back p1 a with
    | false => simp only [Bool.false_eq_true, if_false, run_pure, Go.wp_pure]; exact ⟨by simp, hr.2⟩
    | true => simp only [if_true, run_pure, Go.wp_pure]; exact hr

theorem sizeAt_cons (w : World F) (a : Addr) (as : List Addr) (ns : NS) : sizeAt w (a :: as) ns = sizeAt w [a] ns + sizeAt w as ns := by
  simp [sizeAt]

theorem NoLarger.sizeAt {w w' : World F} (h : NoLarger w w') (ns : NS) : ∀ as : List Addr, Spec.sizeAt w' as ns ≤ Spec.sizeAt w as ns
  | [] => by simp [Spec.sizeAt]
  | a :: as => by
    rw [sizeAt_cons, sizeAt_cons w]
    exact Nat.add_le_add (h a ns) (h.sizeAt ns as)

theorem getFrom_enough {env : Env} (hm : MonoClock env.tk) {D : NS → Nat} (ns : NS) (v : List F) (drain : Bool) {n n' : Int} :
    ∀ (as : List Addr) (w : World F) (res : List (DataPoint F)) (p : Nat), WorldOK D w → ((res.length + sizeAt w as ns : Nat) : Int) < n →
      ((res.length + sizeAt w as ns : Nat) : Int) < n' →
      (Dps.getFrom env ns v n drain as res).run w p = (Dps.getFrom env ns v n' drain as res).run w p
  | [], w, res, p, _, _, _ => by unfold Dps.getFrom; rfl
  | a :: as, w, res, p, hw, h, h' => by
    rw [sizeAt_cons] at h h'
    unfold Dps.getFrom
    simp only [run_bind]
    refine (Go.bind_congr_left _ (client_knn_enough hm hw a ns v drain (k := n - res.length) (k' := n' - res.length) (by omega) (by omega) p)).trans ?_
    refine Go.bind_congr_of_wp (Go.wp_and (wp_client_knn_size hm hw a ns v drain (k := n' - res.length) (by omega) p)
      (wp_client_knn hm hw a ns v (k := n' - res.length) (by omega) drain p)) (fun r p1 hr => ?_)
    obtain ⟨⟨h1, h2⟩, _, h3⟩ := hr
    have h4 := h2.sizeAt ns as
    have hlen : (res ++ r.1).length = res.length + r.1.length := List.length_append
    rw [if_neg (by omega), if_neg (by omega)]
    exact getFrom_enough hm ns v drain as r.2 (res ++ r.1) p1 h3.ok (by omega) (by omega)

theorem get_enough {env : Env} (hm : MonoClock env.tk) {D : NS → Nat} {w : World F} (hw : WorldOK D w) (as : List Addr) (ns : NS) (v : List F) (drain : Bool)
    {n n' : Int} (h : (sizeAt w as ns : Int) < n) (h' : (sizeAt w as ns : Int) < n') (p : Nat) :
    (Dps.getDataPoints env as ns v n drain).run w p = (Dps.getDataPoints env as ns v n' drain).run w p := by
  have hmk : ∀ j : Int, 0 ≤ j → Go.checkMake j = pure () := fun j hj => by unfold Go.checkMake; rw [if_neg (by omega)]
  unfold Dps.getDataPoints
  simp only [run_bind, run_loc]
  rw [hmk n (by omega), hmk n' (by omega)]
  simp only [pure_bind]
  exact getFrom_enough hm ns v drain as w [] p hw (by simpa using h) (by simpa using h')

theorem sizeAt_bestFit {dist : List F → Option F} {asc : Bool} {answers : List (Addr × Option (List F))} {as addrs : List Addr} (h : BestFit dist asc answers as)
    (h1 : (answers.map (fun q => q.1)).Perm addrs) (w : World F) (ns : NS) : sizeAt w as ns ≤ sizeAt w addrs ns := by
  obtain ⟨chosen, rfl, h2, _⟩ := h
  unfold sizeAt
  rw [← (h1.map _).sum_eq]
  have h3 := (h2.map (fun q => q.1)).symm
  rw [List.map_map] at h3
  have e : chosen.map (fun q => q.1) = chosen.map ((fun q : Addr × Option (List F) => q.1) ∘ fun q => (q.1, some q.2)) := rfl
  rw [e, ← (h3.map _).sum_eq]
  exact ((List.filter_sublist.map _).map _).sum_le_sum (fun _ _ => Nat.zero_le _)

/-- C131, a query at the HTTP endpoint: any two counts above what the nodes have of the namespace (datapoints and centroids) give the same run: the same
answer in the same order, the same state, the same messages. Messages may be lost. -/
theorem C131_query {env : Env} (he : EnvOK env) {D : NS → Nat} {w : World F} (hw : WorldOK D w) (ns : NS) (accurate : Bool) (v : List F) (drain : Bool)
    (addrs : List Addr) {n n' : Int} (h : (sizeAt w addrs ns : Int) < n) (h' : (sizeAt w addrs ns : Int) < n') (p : Nat) :
    (Api.queryDataPoint env addrs (some ⟨ns, accurate, v, n, drain⟩)).run w p =
      (Api.queryDataPoint env addrs (some ⟨ns, accurate, v, n', drain⟩)).run w p := by
  have key : ∀ (sel : Prog F (List Addr)), Go.wp (sel.run w) (fun r p' => r.2 = w ∧ sizeAt w r.1 ns ≤ sizeAt w addrs ns) p →
      ((do let as ← sel; Dps.getDataPoints env as ns v n drain : Prog F (List (DataPoint F))).run w) p =
        ((do let as ← sel; Dps.getDataPoints env as ns v n' drain : Prog F (List (DataPoint F))).run w) p := by
    intro sel hsel
    rw [run_bind, run_bind]
    refine Go.bind_congr_of_wp hsel (fun r p1 hr => ?_)
    obtain ⟨h1, h2⟩ := hr
    rw [h1]
    exact get_enough he.clock hw r.1 ns v drain (by omega) (by omega) p1
  unfold Api.queryDataPoint
  simp only [run_bind]
  refine Go.bind_congr_left _ ?_
  cases accurate with
  | true =>
    simp only [if_true]
    refine key _ (Go.wp_mono (wp_bestAccurate he hw knnCos_searchesBest addrs ns v p) (fun r p1 h => ?_))
    obtain ⟨_, h2, answers, h3, _, h5⟩ := h
    exact ⟨h2, sizeAt_bestFit h5 h3 w ns⟩
  | false =>
    simp only [Bool.false_eq_true, if_false]
    refine key _ (Go.wp_mono (wp_bestFast he hw knnCos_searchesBest addrs ns v p) (fun r p1 h => ?_))
    obtain ⟨_, h2, answers, h3, _, h5⟩ := h
    exact ⟨h2, sizeAt_bestFit h5 h3 w ns⟩

/-- C131, one RPC: any two counts above what the node has of the namespace give the same run. -/
theorem C131_lookup {env : Env} (he : EnvOK env) {D : NS → Nat} {w : World F} (hw : WorldOK D w) (a : Addr) (ns : NS) (v : List F) (drain : Bool) {k k' : Int}
    (h : (sizeAt w [a] ns : Int) < k) (h' : (sizeAt w [a] ns : Int) < k') (p : Nat) :
    (Server.knnLookup env a ns v k drain).run w p = (Server.knnLookup env a ns v k' drain).run w p :=
  server_knn_enough he.clock hw a ns v drain h h' p

/-! ## A concrete case: two nodes with three datapoints at two centroids -/

open ServerExample in
/-- Whatever count above five is asked for, the answer is (1,0), (2,0), (0,1) in this order, in kernel-checked float64. -/
example (n : Int) (hn : 5 < n) : ∃ r p', (Api.queryDataPoint env [1, 2] (some ⟨7, false, [.ofInt 1, .ofInt 1], n, true⟩)).run two 0 = .ok (r, p') ∧
    (r.1.1, r.1.2.map (fun d => d.vec), storedAt r.2 [1, 2] 7) = (200, [[.ofInt 1, .ofInt 0], [.ofInt 2, .ofInt 0], [.ofInt 0, .ofInt 1]], []) := by
  rw [C131_query env_ok two_ok 7 false [.ofInt 1, .ofInt 1] true [1, 2] (n := n) (n' := 6) hn (by decide) 0]
  refine exists_of_run (f := fun (r : (Nat × List (Api.DP F64)) × World F64) => (r.1.1, r.1.2.map (fun d => d.vec), storedAt r.2 [1, 2] 7)) ?_
  decide +kernel

end Trypo
