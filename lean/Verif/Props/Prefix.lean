import Verif.Props.Harvest
import Verif.Proofs.KNN2

/-!
# C110: a query for fewer datapoints is the beginning of a query for more
-/

set_option linter.unusedSectionVars false
set_option linter.unusedVariables false

namespace Trypo
open GoFloat Spec

/-! ### Sources asked in turn -/

section
variable {σ α : Type}

/-- What a source gives for fewer is the beginning of what it gives for more, and if it gives fewer than it is asked for, that is all it has. -/
structure Steady (give : Nat → σ → List α) (s : σ) : Prop where
  count : ∀ k, (give k s).length ≤ k
  more : ∀ k k', k ≤ k' → give k s <+: give k' s
  all : ∀ k k', (give k s).length < k → k ≤ k' → give k' s = give k s

/-- Sources asked in turn until there are `k`. -/
def collect (give : Nat → σ → List α) : Nat → List σ → List α
  | _, [] => []
  | k, s :: ss => if k = 0 then [] else give k s ++ collect give (k - (give k s).length) ss

theorem collect_zero (give : Nat → σ → List α) (ss : List σ) : collect give 0 ss = [] := by
  cases ss <;> simp [collect]

theorem collect_count {give : Nat → σ → List α} : ∀ {ss : List σ} (k : Nat), (∀ s ∈ ss, ∀ k, (give k s).length ≤ k) → (collect give k ss).length ≤ k
  | [], k, _ => by simp [collect]
  | s :: ss, k, h => by
    unfold collect
    split
    · simp
    · have := collect_count (ss := ss) (k - (give k s).length) (fun s' h' => h s' (by simp [h']))
      have := h s (by simp) k
      rw [List.length_append]
      omega

theorem collect_prefix {give : Nat → σ → List α} : ∀ {ss ss' : List σ} {k k' : Nat}, k ≤ k' → ss <+: ss' → (∀ s ∈ ss', Steady give s) →
    collect give k ss <+: collect give k' ss'
  | [], ss', k, k', _, _, _ => List.nil_prefix
  | s :: ss, [], k, k', _, h, _ => by simp at h
  | s :: ss, s' :: ss', k, k', hk, h, hs => by
    rw [List.cons_prefix_cons] at h
    obtain ⟨rfl, h⟩ := h
    have h0 := hs s (by simp)
    rcases Nat.eq_zero_or_pos k with rfl | hpos
    · rw [collect_zero]; exact List.nil_prefix
    · unfold collect
      rw [if_neg (by omega), if_neg (by omega)]
      have hc := h0.count k
      by_cases hlt : (give k s).length < k
      · rw [h0.all k k' hlt hk]
        exact (List.prefix_append_right_inj _).2 (collect_prefix (by omega) h (fun x hx => hs x (by simp [hx])))
      · rw [show k - (give k s).length = 0 by omega, collect_zero, List.append_nil]
        exact (h0.more k k' hk).trans (List.prefix_append _ _)

theorem collect_all {give : Nat → σ → List α} : ∀ {ss : List σ} {k k' : Nat}, k ≤ k' → (∀ s ∈ ss, Steady give s) →
    (collect give k ss).length < k → collect give k' ss = collect give k ss
  | [], k, k', _, _, _ => rfl
  | s :: ss, k, k', hk, hs, hlt => by
    have h0 := hs s (by simp)
    unfold collect at hlt ⊢
    rw [if_neg (by omega)] at hlt
    rw [if_neg (by omega), if_neg (by omega)]
    rw [List.length_append] at hlt
    rw [h0.all k k' (by omega) hk, collect_all (k := k - (give k s).length) (by omega) (fun x hx => hs x (by simp [hx])) (by omega)]

end

variable {F : Type} [GoFloat F] [LawfulCmp F]

/-! ### Searches -/

theorem IsPrefab.eq {s : Search F} (h : IsPrefab s) : ∃ asc dist, s = fun t pl k => knnBrute t pl k asc dist := by
  rcases h with rfl | rfl | rfl | rfl <;> exact ⟨_, _, rfl⟩

/-- What a search finds. -/
def found {α : Type} (s : Search F) (v : List F) (vec : α → List F) (k : Nat) (l : List α) : List α :=
  match s v (l.map vec) k with
  | .ok is => is.filterMap (fun i => l[i]?)
  | .error _ => []

theorem found_of {α : Type} {s : Search F} {v : List F} {vec : α → List F} {k : Nat} {l out : List α} {is : List Nat}
    (h : s v (l.map vec) k = .ok is) (ho : is.map (fun i => l[i]?) = out.map some) : found s v vec k l = out := by
  unfold found
  rw [h]
  simp only
  have : is.filterMap (fun i => l[i]?) = (is.map (fun i => l[i]?)).filterMap id := by rw [List.filterMap_map]; rfl
  rw [this, ho, List.filterMap_map]
  simp

theorem found_length {α : Type} {asc : Bool} {dist : List F → List F → Option F} {v : List F} {vec : α → List F} (k : Nat) (l : List α) :
    (found (fun t pl k => knnBrute t pl k asc dist) v vec k l).length = min k ((l.map vec).countP (isCandidate (dist v) asc)) := by
  obtain ⟨res, h1, h2⟩ := knnBrute_kbest v dist asc k (l.map vec)
  obtain ⟨out, ho⟩ := exists_getElems (l := l) (is := res) (by
    intro i hi
    obtain ⟨s, w, hw, _⟩ := h2.valid i hi
    simpa using (List.getElem?_eq_some_iff.1 hw).1)
  rw [found_of h1 ho, ← h2.length]
  have := congrArg List.length ho
  simpa using this.symm

theorem found_prefix {α : Type} {asc : Bool} {dist : List F → List F → Option F} {v : List F} {vec : α → List F} {k k' : Nat} (hk : k ≤ k') (l : List α) :
    found (fun t pl k => knnBrute t pl k asc dist) v vec k l <+: found (fun t pl k => knnBrute t pl k asc dist) v vec k' l := by
  obtain ⟨res, res', h1, h2, h3⟩ := knnBrute_prefix v dist asc hk (l.map vec)
  unfold found
  simp only [h1, h2]
  exact h3.filterMap _

theorem found_steady {α : Type} {s : Search F} (hs : IsPrefab s) (v : List F) (vec : α → List F) (l : List α) : Steady (found s v vec) l := by
  obtain ⟨asc, dist, rfl⟩ := IsPrefab.eq hs
  refine ⟨fun k => by rw [found_length]; omega, fun k k' hk => found_prefix hk l, fun k k' hlt hk => ?_⟩
  refine ((found_prefix hk l).eq_of_length ?_).symm
  rw [found_length] at hlt ⊢
  rw [found_length]
  omega

/-! ### A centroid -/

theorem Centroid.Purged.none {tk : Nat → Int} {i p p' : Nat} {c c' : Centroid F} (h : Centroid.Purged tk i p p' c c') (hl : ∀ d ∈ c.dps, ∀ q, ¬ Dead (tk q) d) :
    c' = c := by
  obtain ⟨rm, e1, e2⟩ := h.steps
  cases rm with
  | nil => cases e1; rfl
  | cons d rm => exact absurd (e2 d (by simp)) (hl d (e1.perm.subset (by simp)) _)

theorem Centroid.wp_knnLookup_found {tk : Nat → Int} (hm : MonoClock tk) {c : Centroid F} (hs : IsPrefab c.knn) (hl : ∀ d ∈ c.dps, ∀ q, ¬ Dead (tk q) d)
    (v : List F) (k : Nat) (drain : Bool) (p : Nat) :
    Go.wp (c.knnLookup tk v k drain) (fun r _ => r.1 = found c.knn v (fun d => d.vec) k c.dps) p := by
  refine Go.wp_mono (wp_knnLookup hm c (IsPrefab.good hs) v (n := (k : Int)) (by omega) drain p) (fun r p' h => ?_)
  cases drain with
  | true =>
    rw [if_pos rfl] at h
    obtain ⟨c1, is, h1, h2, _, _, h3⟩ := h
    rw [h1.none hl] at h2 h3
    exact (found_of h2 h3.out_eq).symm
  | false =>
    rw [if_neg (by simp)] at h
    obtain ⟨is, h1, h2, _, _, h3⟩ := h
    rw [h1.none hl] at h2 h3
    exact (found_of h2 h3).symm

/-- C110, a centroid with one of the library searches: as long as nothing expires, what `KNNLookup(v,k,drain)` answers is the beginning of what it
answers for any larger `k`, whether it drains or not. -/
theorem C110_centroid {tk : Nat → Int} (hm : MonoClock tk) {c : Centroid F} (hs : IsPrefab c.knn) (hl : ∀ d ∈ c.dps, ∀ q, ¬ Dead (tk q) d)
    (v : List F) {k k' : Nat} (hk : k ≤ k') (drain drain' : Bool) (p p' : Nat) :
    ∃ out c1 q out' c2 q', c.knnLookup tk v k drain p = .ok ((out, c1), q) ∧ c.knnLookup tk v k' drain' p' = .ok ((out', c2), q') ∧ out <+: out' := by
  obtain ⟨r, q, h1, h2⟩ := Go.wp_iff.1 (Centroid.wp_knnLookup_found hm hs hl v k drain p)
  obtain ⟨r', q', h1', h2'⟩ := Go.wp_iff.1 (Centroid.wp_knnLookup_found hm hs hl v k' drain' p')
  exact ⟨_, _, _, _, _, _, h1, h1', by rw [h2, h2']; exact (found_steady hs v _ _).more k k' hk⟩

/-! ### A manager -/

/-- What a manager answers if nothing expires. -/
def Manager.answer (m : Manager F) (v : List F) (k : Nat) : List (DataPoint F) :=
  collect (found m.knn v (fun d => d.vec)) k ((found m.knn v (fun c => c.vec) k m.centroids).map (fun c => c.dps))

theorem Manager.wp_lookupLoop_found {tk : Nat → Int} (hm : MonoClock tk) (v : List F) (k : Nat) (drain : Bool) :
    ∀ (is : List Nat) (cs : List (Centroid F)) (cm : Manager F) (res : List (DataPoint F)) (p : Nat), cm.WF → is.Nodup →
      is.map (fun i => cm.centroids[i]?) = cs.map some → IsPrefab cm.knn → res.length ≤ k → (∀ c ∈ cs, ∀ d ∈ c.dps, ∀ q, ¬ Dead (tk q) d) →
      Go.wp (lookupLoop tk v k drain is cm res) (fun r _ => r.1 = res ++ collect (found cm.knn v (fun d => d.vec)) (k - res.length) (cs.map (fun c => c.dps))) p
  | [], cs, cm, res, p, _, _, hcs, _, hl, _ => by
    have : cs = [] := by cases cs with
      | nil => rfl
      | cons c cs => simp at hcs
    subst this
    simp only [lookupLoop, Go.wp_pure, List.map_nil, collect, List.append_nil]
  | i :: is, [], cm, res, p, _, _, hcs, _, _, _ => by simp at hcs
  | i :: is, c :: cs, cm, res, p, hw, hnd, hcs, hk, hl, hlive => by
    unfold lookupLoop
    rw [Go.wp_ite]
    refine ⟨fun h => ?_, fun h => ?_⟩
    · rw [Go.wp_pure, show k - res.length = 0 by omega, collect_zero, List.append_nil]
    · rw [List.map_cons, List.map_cons, List.cons.injEq] at hcs
      obtain ⟨hc, hcs⟩ := hcs
      have hcm := List.mem_of_getElem? hc
      rw [List.nodup_cons] at hnd
      have hck : c.knn = cm.knn := (hw.search c hcm).1
      have hcok : SearchOK c.knn := by rw [hck]; exact IsPrefab.good hk
      have hcl := hlive c (by simp)
      have hkk : ((k - res.length : Nat) : Int) = (k : Int) - res.length := by omega
      have hcount := (found_steady hk v (fun d : DataPoint F => d.vec) c.dps).count (k - res.length)
      rw [Go.wp_bind]
      refine Go.wp_mono (wp_onCentroid (tk := tk) hw hc _ (R := fun c' res' _ p' => res' = res ++ found cm.knn v (fun d => d.vec) (k - res.length) c.dps) ?_)
        (fun r p1 h1 => ?_)
      · rw [Go.wp_bind, ← hkk]
        refine Go.wp_mono (Go.wp_and (Centroid.wp_knnLookup_found hm (hck ▸ hk) hcl v (k - res.length) drain p)
          (Centroid.callOK_knnLookup hm c hcok (hw.dim c hcm).2 v (k := ((k - res.length : Nat) : Int)) (by omega) drain p))
          (fun q p1 hq => ?_)
        obtain ⟨hq, hok, _⟩ := hq
        rw [hck] at hq
        refine Go.wp_mono (wp_lookupTake tk k drain q.1 res q.2 p1 (by rw [hq]; omega)) (fun s p2 hs => ?_)
        obtain ⟨rfl, rfl⟩ := hs
        exact ⟨_, hok, by rw [hq]⟩
      · obtain ⟨out, c', e1, e2, e3, e4⟩ := h1
        have hw1 := e1.wf
        rw [e2] at hw1 ⊢
        rw [e4]
        have hlen : (res ++ found cm.knn v (fun d => d.vec) (k - res.length) c.dps).length =
          res.length + (found cm.knn v (fun d => d.vec) (k - res.length) c.dps).length := List.length_append
        refine Go.wp_mono (wp_lookupLoop_found hm v k drain is cs _ (res ++ found cm.knn v (fun d => d.vec) (k - res.length) c.dps) p1 hw1 hnd.2 ?_ hk
          (by omega) (fun x hx => hlive x (by simp [hx]))) (fun s p2 hs => ?_)
        · rw [← hcs]
          refine List.map_congr_left (fun j hj => ?_)
          have hne : i ≠ j := fun h => hnd.1 (h ▸ hj)
          rw [upd_centroids, List.getElem?_set_ne hne]
        · rw [hs, hlen, ← Nat.sub_sub, List.append_assoc, List.map_cons, collect, if_neg (by omega)]
          rfl

theorem Manager.wp_knnLookup_answer {tk : Nat → Int} (hm : MonoClock tk) {cm : Manager F} (hw : cm.WF) (hs : IsPrefab cm.knn)
    (hl : ∀ d ∈ stored cm, ∀ q, ¬ Dead (tk q) d) (v : List F) (k : Nat) (drain : Bool) (p : Nat) :
    Go.wp (cm.knnLookup tk v k drain) (fun r _ => r.1 = cm.answer v k) p := by
  obtain ⟨asc, dist, he⟩ := IsPrefab.eq hs
  obtain ⟨near, h1, h2⟩ := knnBrute_kbest v dist asc k (cm.centroids.map (fun c => c.vec))
  obtain ⟨cs, hcs⟩ := exists_getElems (l := cm.centroids) (is := near) (by
    intro i hi
    obtain ⟨s, w, hw, _⟩ := h2.valid i hi
    simpa using (List.getElem?_eq_some_iff.1 hw).1)
  have hsearch : cm.knn v (cm.centroids.map (fun c => c.vec)) k = .ok near := by rw [he]; exact h1
  have hlive : ∀ c ∈ cs, ∀ d ∈ c.dps, ∀ q, ¬ Dead (tk q) d := by
    intro c hc d hd
    obtain ⟨i, hi⟩ := List.mem_map.1 (hcs ▸ List.mem_map.2 ⟨c, hc, rfl⟩ : some c ∈ near.map (fun i => cm.centroids[i]?))
    exact hl d (List.mem_flatMap.2 ⟨c, List.mem_of_getElem? hi.2, hd⟩)
  unfold Manager.knnLookup
  simp only [Go.wp_bind, Go.wp_checkMake, Go.wp_lift, Manager.centroidVecs]
  refine ⟨by omega, near, hsearch, ?_⟩
  refine Go.wp_mono (wp_lookupLoop_found hm v k drain near cs cm [] p hw h2.nodup hcs hs (by simp) hlive) (fun r p' hr => ?_)
  rw [hr]
  unfold answer
  rw [found_of hsearch hcs]
  rfl

theorem Manager.answer_prefix {m : Manager F} (hs : IsPrefab m.knn) (v : List F) {k k' : Nat} (hk : k ≤ k') : m.answer v k <+: m.answer v k' :=
  collect_prefix hk (((found_steady hs v _ _).more k k' hk).map _) (fun l _ => found_steady hs v _ l)

/-- C110, a manager: as long as nothing expires, what `KNNLookup(v,k,drain)` answers is the beginning of what it answers for any larger `k`, whether it
drains or not. -/
theorem C110_lookup_partial {tk : Nat → Int} (hm : MonoClock tk) {cm : Manager F} (hok : ManagerOK cm) (hs : IsPrefab cm.knn)
    (hl : ∀ d ∈ stored cm, ∀ q, ¬ Dead (tk q) d) (v : List F) {k k' : Nat} (hk : k ≤ k') (drain drain' : Bool) (p p' : Nat) :
    ∃ out c1 q out' c2 q', cm.knnLookup tk v k drain p = .ok ((out, c1), q) ∧ cm.knnLookup tk v k' drain' p' = .ok ((out', c2), q') ∧ out <+: out' := by
  obtain ⟨r, q, h1, h2⟩ := Go.wp_iff.1 (Manager.wp_knnLookup_answer hm hok.wf hs hl v k drain p)
  obtain ⟨r', q', h1', h2'⟩ := Go.wp_iff.1 (Manager.wp_knnLookup_answer hm hok.wf hs hl v k' drain' p')
  exact ⟨_, _, _, _, _, _, h1, h1', by rw [h2, h2']; exact Manager.answer_prefix hs v hk⟩

/-! ### Nodes -/

theorem collect_ge {σ α : Type} {give : Nat → σ → List α} : ∀ {ss : List σ} (k : Nat), (∀ s ∈ ss, ∀ k, 0 < k → 0 < (give k s).length) →
    min k ss.length ≤ (collect give k ss).length
  | [], k, _ => by simp [collect]
  | s :: ss, k, h => by
    unfold collect
    split
    · omega
    · have := collect_ge (ss := ss) (k - (give k s).length) (fun s' h' => h s' (by simp [h']))
      have := h s (by simp) k (by omega)
      rw [List.length_append, List.length_cons]
      omega

theorem Manager.answer_steady {m : Manager F} (hs : m.knn = knnCos) {v : List F}
    (hne : ∀ c ∈ m.centroids, 0 < candidates (fun d : DataPoint F => cosineSimilarity v d.vec) false c.dps) : Steady (fun k (m : Manager F) => m.answer v k) m := by
  have hp : IsPrefab m.knn := .inl hs
  refine ⟨fun k => collect_count k (fun l _ => (found_steady hp v _ l).count), fun k k' hk => Manager.answer_prefix hp v hk, fun k k' hlt hk => ?_⟩
  have hmem : ∀ c ∈ found m.knn v (fun c : Centroid F => c.vec) k m.centroids, c ∈ m.centroids := by
    intro c hc
    unfold found at hc
    split at hc
    · obtain ⟨i, _, hi⟩ := List.mem_filterMap.1 hc
      exact List.mem_of_getElem? hi
    · cases hc
  have hge := collect_ge (give := found m.knn v (fun d : DataPoint F => d.vec)) (ss := (found m.knn v (fun c => c.vec) k m.centroids).map (fun c => c.dps)) k (by
    intro l hl k hk
    obtain ⟨c, hc, rfl⟩ := List.mem_map.1 hl
    have h1 := hne c (hmem c hc)
    have h2 := found_length (asc := false) (dist := cosineSimilarity) (v := v) (vec := fun d : DataPoint F => d.vec) k c.dps
    rw [hs]
    show 0 < (found (fun t pl k => knnBrute t pl k false cosineSimilarity) v (fun d : DataPoint F => d.vec) k c.dps).length
    rw [h2, List.countP_map]
    have : candidates (fun d : DataPoint F => cosineSimilarity v d.vec) false c.dps =
        c.dps.countP (isCandidate (cosineSimilarity v) false ∘ (fun d => d.vec)) := rfl
    rw [← this]
    omega)
  simp only [answer] at hlt ⊢
  rw [List.length_map] at hge
  rw [(found_steady hp v (fun c : Centroid F => c.vec) m.centroids).all k k' (by omega) hk]
  exact collect_all hk (fun l _ => found_steady hp v _ l) hlt

/-- What a node answers if nothing expires and no message is lost. -/
def nodeAnswer (w : World F) (ns : NS) (v : List F) (k : Nat) (a : Addr) : List (DataPoint F) :=
  match w.get a ns with
  | some m => m.answer v k
  | none => []

theorem wp_client_answer {env : Env} (hm : MonoClock env.tk) {D : NS → Nat} {w : World F} (hw : WorldOK D w) {a : Addr} (hr : Reachable env a)
    (ns : NS) (v : List F) (hl : ∀ m, w.get a ns = some m → ∀ d ∈ stored m, ∀ q, ¬ Dead (env.tk q) d) (k : Nat) (drain : Bool) (p : Nat) :
    Go.wp ((Client.knnLookup env a ns v k drain).run w) (fun r _ => r.1 = nodeAnswer w ns v k a) p := by
  unfold Client.knnLookup Client.call
  simp only [run_bind, Go.wp_bind, run_loc, Go.wp_checkMake]
  refine ⟨by omega, ?_⟩
  rw [Go.wp_pure]
  refine wp_sent ?_
  rw [Go.wp_pure, hr.1 p]
  simp only [if_true, run_bind, Go.wp_bind]
  have key : Go.wp ((Server.knnLookup env a ns v k drain).run w) (fun r _ => r.1.getD [] = nodeAnswer w ns v k a) (p + 1) := by
    unfold Server.knnLookup nodeAnswer
    cases hg : w.get a ns with
    | none =>
      rw [run_access_none ((get_eq_none_iff hw).1 hg), Go.wp_pure]
      rfl
    | some m =>
      obtain ⟨i, hl', hi⟩ := lookup_of_get hw hg
      have hok := hw.mok hi
      rw [run_access_some hl' hi, Go.wp_bind]
      refine Go.wp_mono (Manager.wp_knnLookup_answer hm hok.wf (.inl hok.knn) (hl m hg) v k drain (p + 1)) (fun r p' hr => ?_)
      rw [Go.wp_pure]
      exact hr
  refine Go.wp_mono key (fun r p1 h2 => ?_)
  rw [run_loc, Go.wp_bind]
  refine wp_arrived ?_
  rw [Go.wp_pure, hr.2 p1]
  simp only [if_true, run_pure, Go.wp_pure]
  exact h2

theorem wp_getFrom_answer {env : Env} (hm : MonoClock env.tk) {D : NS → Nat} (ns : NS) (v : List F) (n : Nat) (drain : Bool) (w0 : World F) :
    ∀ (as : List Addr) (w : World F) (res : List (DataPoint F)) (p : Nat), WorldOK D w → as.Nodup → res.length ≤ n → (∀ a ∈ as, Reachable env a) →
      (∀ a ∈ as, w.get a ns = w0.get a ns) → (∀ a ∈ as, ∀ m, w0.get a ns = some m → ∀ d ∈ stored m, ∀ q, ¬ Dead (env.tk q) d) →
      Go.wp ((Dps.getFrom env ns v n drain as res).run w) (fun r _ => r.1 = res ++ collect (nodeAnswer w0 ns v) (n - res.length) as) p
  | [], w, res, p, hw, _, _, _, _, _ => by
    unfold Dps.getFrom
    rw [run_pure, Go.wp_pure]
    simp [collect]
  | a :: as, w, res, p, hw, hnd, hl, hr, hsame, hlive => by
    rw [List.nodup_cons] at hnd
    unfold Dps.getFrom
    have hwa := hsame a (by simp)
    rw [run_bind, Go.wp_bind, show (n : Int) - res.length = ((n - res.length : Nat) : Int) by omega]
    refine Go.wp_mono (Go.wp_and (wp_client_answer hm hw (hr a (by simp)) ns v (by rw [hwa]; exact hlive a (by simp)) (n - res.length) drain p)
      (wp_client_knn hm hw a ns v (k := ((n - res.length : Nat) : Int)) (by omega) drain p)) (fun r p1 h => ?_)
    obtain ⟨h1, _, h3⟩ := h
    have h1 : r.1 = nodeAnswer w0 ns v (n - res.length) a := by
      rw [h1]; unfold nodeAnswer; rw [hwa]
    have hc := h3.count
    have hlen : (res ++ r.1).length = res.length + r.1.length := List.length_append
    have hcol : collect (nodeAnswer w0 ns v) (n - res.length) (a :: as) =
        r.1 ++ collect (nodeAnswer w0 ns v) (n - res.length - r.1.length) as := by
      rw [h1] at hc ⊢
      rw [collect]
      split
      · rename_i h0
        rw [h0] at hc ⊢
        have : nodeAnswer w0 ns v 0 a = [] := List.eq_nil_of_length_eq_zero (by simpa using hc)
        rw [this, Nat.zero_sub, collect_zero]
        rfl
      · rfl
    by_cases hfull : (((res ++ r.1).length : Nat) : Int) ≥ n
    · rw [if_pos hfull, run_pure, Go.wp_pure, hcol, show n - res.length - r.1.length = 0 by omega, collect_zero, List.append_nil]
    · rw [if_neg hfull]
      refine Go.wp_mono (wp_getFrom_answer hm ns v n drain w0 as r.2 (res ++ r.1) p1 h3.ok hnd.2 (by omega) (fun b hb => hr b (by simp [hb]))
        (fun b hb => ?_) (fun b hb => hlive b (by simp [hb]))) (fun q p2 hq => ?_)
      · rw [h3.others b ns (.inl (by rintro rfl; exact hnd.1 hb))]
        exact hsame b (by simp [hb])
      · rw [hq, hcol, hlen, ← Nat.sub_sub, List.append_assoc]

/-- C110, what holds for several nodes: nodes that answer are asked in the same order, nothing expires, and every centroid has a datapoint that can be
compared with the query. Then the answer for `n` is the beginning of the answer for any larger `n`. -/
theorem C110_nodes_partial {env : Env} (hm : MonoClock env.tk) {D : NS → Nat} {w : World F} (hw : WorldOK D w) (ns : NS) (v : List F) {as : List Addr}
    (hnd : as.Nodup) (hr : ∀ a ∈ as, Reachable env a) (hl : ∀ a ∈ as, ∀ m, w.get a ns = some m → ∀ d ∈ stored m, ∀ q, ¬ Dead (env.tk q) d)
    (hne : ∀ a ∈ as, ∀ m, w.get a ns = some m → ∀ c ∈ m.centroids, 0 < candidates (fun d : DataPoint F => cosineSimilarity v d.vec) false c.dps)
    {n n' : Nat} (hn : n ≤ n') (drain drain' : Bool) (p p' : Nat) :
    ∃ out w1 q out' w2 q', (Dps.getDataPoints env as ns v n drain).run w p = .ok ((out, w1), q) ∧
      (Dps.getDataPoints env as ns v n' drain').run w p' = .ok ((out', w2), q') ∧ out <+: out' := by
  have key : ∀ (n : Nat) (drain : Bool) (p : Nat), Go.wp ((Dps.getDataPoints env as ns v n drain).run w) (fun r _ => r.1 = collect (nodeAnswer w ns v) n as) p := by
    intro n drain p
    unfold Dps.getDataPoints
    simp only [run_bind, Go.wp_bind, run_loc, Go.wp_checkMake]
    refine ⟨by omega, ?_⟩
    rw [Go.wp_pure]
    exact Go.wp_mono (wp_getFrom_answer hm ns v n drain w as w [] p hw hnd (by simp) hr (fun _ _ => rfl) hl) (fun r p' h => by simpa using h)
  obtain ⟨r, q, h1, h2⟩ := Go.wp_iff.1 (key n drain p)
  obtain ⟨r', q', h1', h2'⟩ := Go.wp_iff.1 (key n' drain' p')
  refine ⟨_, _, _, _, _, _, h1, h1', ?_⟩
  rw [h2, h2']
  refine collect_prefix hn (List.prefix_refl _) (fun a ha => ?_)
  cases hg : w.get a ns with
  | none =>
    refine ⟨fun k => ?_, fun k k' _ => ?_, fun k k' _ _ => ?_⟩ <;> simp [nodeAnswer, hg]
  | some m =>
    obtain ⟨i, _, hi⟩ := lookup_of_get hw hg
    have h := Manager.answer_steady (hw.mok hi).knn (hne a ha m hg)
    have e : ∀ k, nodeAnswer w ns v k a = m.answer v k := fun k => by simp only [nodeAnswer, hg]
    exact ⟨fun k => by rw [e]; exact h.count k, fun k k' hk => by rw [e, e]; exact h.more k k' hk, fun k k' hlt hk => by
      rw [e] at hlt ⊢; rw [e]; exact h.all k k' hlt hk⟩

/-! ### The counter-example -/

open ServerExample

namespace PrefixExample

/-- Node 1 has two centroids, node 2 has one. -/
def before : World F64 := nodes2 (man [.ofInt 1, .ofInt 1] [cen [.ofInt 1, .ofInt 0] [dp 1 0], cen [.ofInt 1, .ofInt 2] [dp 1 2]])
  (man [.ofInt 0, .ofInt 1] [cen [.ofInt 0, .ofInt 1] [dp 0 1]]) (man [.ofInt 3, .ofInt 4] [])

theorem before_ok : WorldOK (fun _ => 2) before :=
  nodes2_ok (man_mok rfl (by simp [cen, dp]) (by simp [cen])) (man_mok rfl (by simp [cen, dp]) (by simp [cen]))
    (man_mok rfl (by simp) (by simp))

/-- A query for what is nearest to (1,0). -/
def ask (n : Int) (drain : Bool) : Api.QueryOpts F64 := ⟨7, true, [.ofInt 1, .ofInt 0], n, drain⟩

end PrefixExample
open PrefixExample

/-- C110 is false of the code: a draining query has taken the only datapoint of a centroid. Now a query for one datapoint answers (0,1), a query for
two answers (1,2) and (0,1): a node is asked for as many centroids as datapoints, so the first node has nothing to give for one. -/
theorem C110_refuted : ∃ (w : World F64) (p : Nat) (q1 q2 : (Nat × List (Api.DP F64)) × World F64) (p1 p2 : Nat),
    ((Api.queryDataPoint env [1, 2] (some (ask 1 true))).run before 0).map (fun r => (r.1.2, r.2)) = .ok (w, p) ∧
    (Api.queryDataPoint env [1, 2] (some (ask 1 false))).run w p = .ok (q1, p1) ∧
    (Api.queryDataPoint env [1, 2] (some (ask 2 false))).run w p = .ok (q2, p2) ∧
    q1.1.2.map (fun d => d.vec) = [(dp 0 1).vec] ∧ q2.1.2.map (fun d => d.vec) = [(dp 1 2).vec, (dp 0 1).vec] ∧
    ¬ q1.1.2 <+: q2.1.2 := by
  have h : ((Api.queryDataPoint env [1, 2] (some (ask 1 true))).run before 0).map (fun r => decide (
      ((Api.queryDataPoint env [1, 2] (some (ask 1 false))).run r.1.2 r.2).map (fun q => q.1.1.2.map (fun d => d.vec)) = .ok [(dp 0 1).vec] ∧
      ((Api.queryDataPoint env [1, 2] (some (ask 2 false))).run r.1.2 r.2).map (fun q => q.1.1.2.map (fun d => d.vec)) =
        .ok [(dp 1 2).vec, (dp 0 1).vec])) = .ok true := by decide +kernel
  cases hr : (Api.queryDataPoint env [1, 2] (some (ask 1 true))).run before 0 with
  | error e => rw [hr] at h; cases h
  | ok r =>
    rw [hr] at h
    obtain ⟨h1, h2⟩ := of_decide_eq_true (Except.ok.inj h)
    cases hs : (Api.queryDataPoint env [1, 2] (some (ask 1 false))).run r.1.2 r.2 with
    | error e => rw [hs] at h1; cases h1
    | ok s =>
      cases ht : (Api.queryDataPoint env [1, 2] (some (ask 2 false))).run r.1.2 r.2 with
      | error e => rw [ht] at h2; cases h2
      | ok t =>
        rw [hs] at h1
        rw [ht] at h2
        have h1 : s.1.1.2.map (fun d => d.vec) = [(dp 0 1).vec] := Except.ok.inj h1
        have h2 : t.1.1.2.map (fun d => d.vec) = [(dp 1 2).vec, (dp 0 1).vec] := Except.ok.inj h2
        refine ⟨r.1.2, r.2, s.1, t.1, s.2, t.2, rfl, hs, ht, h1, h2, fun hp => ?_⟩
        have := hp.map (fun d => d.vec)
        rw [h1, h2] at this
        revert this
        decide +kernel

/-! ### Examples -/

/-- C110, nodes: before anything is drained, every centroid has something to give. -/
example : ∃ out w1 q out' w2 q', (Dps.getDataPoints env [1, 2] 7 [F64.ofInt 1, .ofInt 0] (1 : Nat) true).run before 0 = .ok ((out, w1), q) ∧
    (Dps.getDataPoints env [1, 2] 7 [F64.ofInt 1, .ofInt 0] (3 : Nat) false).run before 5 = .ok ((out', w2), q') ∧ out <+: out' := by
  have hget : ∀ a ∈ [1, 2], ∀ m, before.get a 7 = some m →
      m = man [.ofInt 1, .ofInt 1] [cen [.ofInt 1, .ofInt 0] [dp 1 0], cen [.ofInt 1, .ofInt 2] [dp 1 2]] ∨
      m = man [.ofInt 0, .ofInt 1] [cen [.ofInt 0, .ofInt 1] [dp 0 1]] := by
    intro a ha m hm
    rcases List.mem_pair.1 ha with rfl | rfl
    · exact .inl (Option.some.inj hm).symm
    · exact .inr (Option.some.inj hm).symm
  refine C110_nodes_partial env_ok.clock before_ok 7 [F64.ofInt 1, .ofInt 0] (as := [1, 2]) (by decide) (fun _ _ => ⟨fun _ => rfl, fun _ => rfl⟩)
    (fun a ha m hm d hd q => ?_) (fun a ha m hm c hc => ?_) (by decide) true false 0 5
  · rcases hget a ha m hm with rfl | rfl
    · have : ∀ d ∈ [dp 1 0, dp 1 2], d.expireEnabled = false := by decide +kernel
      intro h; simp [Dead, this d hd] at h
    · have : ∀ d ∈ [dp 0 1], d.expireEnabled = false := by decide +kernel
      intro h; simp [Dead, this d hd] at h
  · rcases hget a ha m hm with rfl | rfl
    · have h : ∀ c ∈ [cen [F64.ofInt 1, .ofInt 0] [dp 1 0], cen [.ofInt 1, .ofInt 2] [dp 1 2]],
          0 < candidates (fun d : DataPoint F64 => cosineSimilarity [F64.ofInt 1, .ofInt 0] d.vec) false c.dps := by
        intro c hc
        rcases List.mem_pair.1 hc with rfl | rfl <;> decide +kernel
      exact h c hc
    · have h : ∀ c ∈ [cen [F64.ofInt 0, .ofInt 1] [dp 0 1]],
          0 < candidates (fun d : DataPoint F64 => cosineSimilarity [F64.ofInt 1, .ofInt 0] d.vec) false c.dps := by
        intro c hc
        rw [List.mem_singleton.1 hc]
        decide +kernel
      exact h c hc

/-- C110, centroid: one, then two of three datapoints. -/
example : (((cen [.ofInt 1, .ofInt 1] [dp 0 1, dp 1 0, dp 1 2]).knnLookup (fun _ => 0) [F64.ofInt 1, .ofInt 0] 1 true 0).map (fun r => r.1.1),
    ((cen [.ofInt 1, .ofInt 1] [dp 0 1, dp 1 0, dp 1 2]).knnLookup (fun _ => 0) [F64.ofInt 1, .ofInt 0] 2 false 0).map (fun r => r.1.1)) =
      (.ok [dp 1 0], .ok [dp 1 0, dp 1 2]) := by decide +kernel

/-- C110, manager: (1,0) from the nearest centroid, then (1,2) from the next. -/
example : (((man [.ofInt 1, .ofInt 1] [cen [.ofInt 1, .ofInt 2] [dp 1 2], cen [.ofInt 1, .ofInt 0] [dp 1 0]]).knnLookup (fun _ => 0) [F64.ofInt 1, .ofInt 0] 1
      false 0).map (fun r => r.1.1),
    ((man [.ofInt 1, .ofInt 1] [cen [.ofInt 1, .ofInt 2] [dp 1 2], cen [.ofInt 1, .ofInt 0] [dp 1 0]]).knnLookup (fun _ => 0) [F64.ofInt 1, .ofInt 0] 2
      true 0).map (fun r => r.1.1)) = (.ok [dp 1 0], .ok [dp 1 0, dp 1 2]) := by decide +kernel

end Trypo
