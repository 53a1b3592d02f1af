import Verif.Props.Same
import Verif.Props.Symmetry
import Verif.Proofs.NoPanicManager
import Verif.Proofs.Life

/-!
# C136: the length of the vector of a query
-/

set_option linter.unusedSectionVars false

namespace Trypo
open GoFloat Spec

variable {F : Type} [GoFloat F]

namespace Spec

/-- Two vectors that have the same similarity to every vector. -/
def Indistinct (v v' : List F) : Prop := ∀ u : List F, cosineSimilarity v' u = cosineSimilarity v u

end Spec

namespace Direction

theorem knnLoop_same {t t' : List F} (h : Indistinct t t') (asc : Bool) : ∀ (pool : List (List F)) (res : List (ResultItem F)) (i : Nat),
    knnLoop t' cosineSimilarity asc res i pool = knnLoop t cosineSimilarity asc res i pool
  | [], res, i => rfl
  | v :: pool, res, i => by
    simp only [knnLoop, h v]
    cases cosineSimilarity t v with
    | none => exact knnLoop_same h asc pool _ _
    | some x => exact knnLoop_same h asc pool _ _

theorem knn_same {v v' : List F} (h : Indistinct v v') (pool : List (List F)) (k : Int) : knnCos v' pool k = knnCos v pool k := by
  simp only [knnCos, knnBrute, knnLoop_same h]

theorem centroid_same {v v' : List F} (h : Indistinct v v') (tk : Nat → Int) {c : Centroid F} (hc : c.knn = knnCos) (k : Int) (drain : Bool) :
    c.knnLookup tk v' k drain = c.knnLookup tk v k drain := by
  simp only [Centroid.knnLookup, hc, knn_same h]

/-- A manager that searches by similarity, as all its centroids do. -/
structure CosM (m : Manager F) : Prop where
  lax : MLax m
  knn : m.knn = knnCos
  cs : ∀ c ∈ m.centroids, c.knn = knnCos

theorem CosM.of {m : Manager F} (h : ManagerOK m) (hk : m.knn = knnCos) : CosM m :=
  ⟨⟨h.cap, h.good.1, h.good.2, fun c hc => by unfold CLax; rw [(h.search c hc).1, (h.search c hc).2]; exact h.good⟩, hk,
    fun c hc => (h.search c hc).1.trans hk⟩

theorem go_bind_eq {α β : Type} {m : Go α} {f g : α → Go β} {Q : α → Nat → Prop} {p : Nat} (h : Go.wp m Q p)
    (hfg : ∀ r p', Q r p' → f r p' = g r p') : (m >>= f) p = (m >>= g) p := by
  obtain ⟨r, p', e, hq⟩ := Go.wp_iff.1 h
  simp only [bind, StateT.bind, Except.bind, e]
  exact hfg r p' hq

theorem cos_on {α : Type} {m : Manager F} (hm : CosM m) {i : Nat} (hi : i < m.centroids.length) (f : Centroid F → Go (α × Centroid F)) {p : Nat}
    (hf : ∀ c p, CLax c → Go.wp (f c) (fun r _ => Kept c r.2) p) :
    Go.wp (m.onCentroid i f) (fun r _ => CosM r.2 ∧ r.2.centroids.length = m.centroids.length) p := by
  unfold Manager.onCentroid
  simp only [Go.wp_bind, Go.wp_idx, Go.wp_pure]
  obtain ⟨c, e, hc⟩ := hm.lax.cs.get hi
  refine ⟨c, e, Go.wp_mono (hf c p hc) (fun r p1 hr => ⟨⟨?_, hm.knn, ?_⟩, ?_⟩)⟩
  · exact Manager.lax_updateVec (Manager.lax_centroids hm.lax (hm.lax.cs.set i (hr.lax hc))) _ _
  · intro x hx
    have hx : x ∈ m.centroids.set i r.2 := hx
    rcases List.mem_or_eq_of_mem_set hx with h | h
    · exact hm.cs x h
    · rw [h, hr.1]; exact hm.cs c (List.mem_of_getElem? e)
  · simp [Manager.updateVec]

theorem kept_f (tk : Nat → Int) (v : List F) {k k' : Int} (hk : 0 ≤ k') (drain : Bool) (res : List (DataPoint F)) (c : Centroid F) (p : Nat) (hc : CLax c) :
    Go.wp (do let q ← c.knnLookup tk v k' drain; Manager.lookupTake tk k drain q.1 res q.2) (fun r _ => Kept c r.2) p := by
  rw [Go.wp_bind]
  refine Go.wp_mono (Centroid.np_knnLookup tk c hc v hk drain p) (fun q p1 h1 => ?_)
  exact Go.wp_mono (Manager.np_lookupTake tk k drain _ _ _ p1) (fun r p2 h2 => h1.trans h2)

theorem loop_same {v v' : List F} (h : Indistinct v v') (tk : Nat → Int) (k : Int) (drain : Bool) :
    ∀ (is : List Nat) (m : Manager F) (res : List (DataPoint F)) (p : Nat), CosM m → (∀ i ∈ is, i < m.centroids.length) →
      Manager.lookupLoop tk v' k drain is m res p = Manager.lookupLoop tk v k drain is m res p ∧
      Go.wp (Manager.lookupLoop tk v k drain is m res) (fun r _ => CosM r.2) p
  | [], m, res, p, hm, _ => ⟨rfl, hm⟩
  | i :: is, m, res, p, hm, hi => by
    unfold Manager.lookupLoop
    split
    · exact ⟨rfl, hm⟩
    · rename_i hk
      have hk' : 0 ≤ k - (res.length : Int) := by omega
      have e : m.onCentroid i (fun c => do let q ← c.knnLookup tk v' (k - res.length) drain; Manager.lookupTake tk k drain q.1 res q.2) =
          m.onCentroid i (fun c => do let q ← c.knnLookup tk v (k - res.length) drain; Manager.lookupTake tk k drain q.1 res q.2) := by
        unfold Manager.onCentroid
        funext p
        obtain ⟨c, e, _⟩ := hm.lax.cs.get (hi i (by simp))
        have hw : Go.wp (Go.idx m.centroids i) (fun c _ => c.knn = knnCos) p := by
          rw [Go.wp_idx]; exact ⟨c, e, hm.cs c (List.mem_of_getElem? e)⟩
        refine go_bind_eq hw fun c p' hc => ?_
        dsimp only
        rw [centroid_same h tk hc]
      have hw := cos_on hm (hi i (by simp)) _ (p := p) (fun c p hc => kept_f tk v (k := k) hk' drain res c p hc)
      rw [e, Go.wp_bind]
      have hn := fun (r : List (DataPoint F) × Manager F) (p' : Nat) (hr : CosM r.2 ∧ r.2.centroids.length = m.centroids.length) =>
        loop_same h tk k drain is r.2 r.1 p' hr.1 (fun j hj => by rw [hr.2]; exact hi j (List.mem_cons_of_mem _ hj))
      exact ⟨go_bind_eq hw fun r p' hr => (hn r p' hr).1, Go.wp_mono hw fun r p' hr => (hn r p' hr).2⟩

theorem lookup_same {v v' : List F} (h : Indistinct v v') (tk : Nat → Int) {m : Manager F} (hm : CosM m) (k : Int) (drain : Bool) :
    m.knnLookup tk v' k drain = m.knnLookup tk v k drain := by
  unfold Manager.knnLookup
  rw [hm.knn]
  funext p
  by_cases hk : 0 ≤ k
  · refine go_bind_eq (Q := fun _ _ => True) (by rw [Go.wp_checkMake]; exact ⟨hk, trivial⟩) fun _ p1 _ => ?_
    rw [knn_same h]
    obtain ⟨is, e, _, h2, _⟩ := hm.lax.knn v m.centroidVecs k hk
    rw [hm.knn] at e
    refine go_bind_eq (Q := fun r _ => r = is) (by rw [Go.wp_lift]; exact ⟨is, e, rfl⟩) fun r p2 hr => ?_
    subst hr
    exact (loop_same h tk k drain r m [] p2 hm (fun i hi => by simpa [Manager.centroidVecs] using h2 i hi)).1
  · have e : (Go.checkMake k : Go Unit) p = .error .makeNeg := by
      unfold Go.checkMake; rw [if_pos (by omega)]; rfl
    simp only [bind, StateT.bind, Except.bind, e]

theorem lookup_keeps (v : List F) (tk : Nat → Int) {m : Manager F} (hm : CosM m) (k : Int) (drain : Bool) (p : Nat) :
    Go.wlp (m.knnLookup tk v k drain) (fun r _ => CosM r.2) p := by
  by_cases hk : 0 ≤ k
  · apply Go.wlp_of_wp
    unfold Manager.knnLookup
    simp only [Go.wp_bind, Go.wp_checkMake, Go.wp_lift]
    obtain ⟨is, e, _, h2, _⟩ := hm.lax.knn v m.centroidVecs k hk
    exact ⟨hk, is, e, (loop_same (fun _ => rfl) tk k drain is m [] p hm (fun i hi => by simpa [Manager.centroidVecs] using h2 i hi)).2⟩
  · intro r p' h
    have e : (Go.checkMake k : Go Unit) p = .error .makeNeg := by
      unfold Go.checkMake; rw [if_pos (by omega)]; rfl
    simp only [Manager.knnLookup, bind, StateT.bind, Except.bind, e] at h
    cases h

theorem nearest_same {v v' : List F} (h : Indistinct v v') {m : Manager F} (hm : m.knn = knnCos) (n : Int) (drain : Bool) :
    m.nearestCentroids v' n drain = m.nearestCentroids v n drain := by
  unfold Manager.nearestCentroids
  rw [hm, knn_same h]

/-! ### Programs -/

/-- All managers search by similarity. -/
def CosW (w : World F) : Prop := ∀ s ∈ w.heap, CosM s.2

theorem CosW.of {D : NS → Nat} {w : World F} (h : WorldOK D w) : CosW w := fun s hs => CosM.of (h.slots s hs).1 (h.slots s hs).2.1

/-- Two programs that do the same in all worlds whose managers search by similarity, and leave such worlds. -/
inductive Twin {α : Type} : Prog F α → Prog F α → Prop
  | ret (a : α) : Twin (.ret a) (.ret a)
  | act {β : Type} (a a' : Act F β) (k k' : β → Prog F α) (h : ∀ w, CosW w → a'.run w = a.run w)
      (hw : ∀ w p, CosW w → Go.wlp (a.run w) (fun r _ => CosW r.2) p) (hk : ∀ b, Twin (k b) (k' b)) : Twin (.act a k) (.act a' k')

theorem Twin.run {α : Type} {m m' : Prog F α} (h : Twin m m') : ∀ w p, CosW w → m'.run w p = m.run w p := by
  induction h with
  | ret a => intro w p _; rfl
  | act a a' k k' h hw hk ih =>
    intro w p hc
    simp only [Prog.run]
    rw [h w hc]
    simp only [bind, StateT.bind, Except.bind]
    cases e : a.run w p with
    | error x => rfl
    | ok r => exact ih _ _ _ (hw w p hc r.1 r.2 e)

theorem Twin.bind {α β : Type} {m m' : Prog F α} {f f' : α → Prog F β} (h : Twin m m') (hf : ∀ a, Twin (f a) (f' a)) : Twin (m >>= f) (m' >>= f') := by
  induction h with
  | ret a => exact hf a
  | act a a' k k' h hw hk ih => exact .act a a' _ _ h hw ih

theorem Twin.pure {α : Type} (a : α) : Twin (Pure.pure a : Prog F α) (Pure.pure a) := .ret a

theorem Twin.loc {β : Type} {m m' : Go β} (h : m' = m) : Twin (Prog.loc m : Prog F β) (Prog.loc m') := by
  subst h
  refine .act _ _ _ _ (fun _ _ => rfl) (fun w p hw => ?_) fun b => .ret b
  intro r p' e
  simp only [Act.run, Bind.bind, StateT.bind, Except.bind] at e
  cases hm : m' p with
  | error x => rw [hm] at e; cases e
  | ok q => rw [hm] at e; cases e; exact hw

theorem Twin.access {β : Type} (a : Addr) (ns : NS) {f f' : Manager F → Go (β × Manager F)} (h : ∀ m, CosM m → f' m = f m)
    (hw : ∀ m p, CosM m → Go.wlp (f m) (fun r _ => CosM r.2) p) : Twin (Server.access a ns f) (Server.access a ns f') := by
  unfold Server.access
  refine .act _ _ _ _ (fun _ _ => rfl) (fun w p hc => by intro r p' e; cases e; exact hc) fun i => ?_
  cases i with
  | none => exact .ret _
  | some i =>
    refine .act _ _ _ _ (fun w hc => ?_) (fun w p hc => ?_) fun b => .ret _
    · simp only [Act.run]
      cases e : w.heap[i]? with
      | none => rfl
      | some s => simp only [h s.2 (hc s (List.mem_of_getElem? e))]
    · intro r p' e
      simp only [Act.run] at e
      cases hs : w.heap[i]? with
      | none => rw [hs] at e; cases e
      | some s =>
        rw [hs] at e
        simp only [Bind.bind, StateT.bind, Except.bind] at e
        have hm := hc s (List.mem_of_getElem? hs)
        cases hf : f s.2 p with
        | error x => rw [hf] at e; cases e
        | ok q =>
          rw [hf] at e; cases e
          intro x hx
          rcases List.mem_or_eq_of_mem_set hx with h | h
          · exact hc x h
          · rw [h]; exact hw s.2 p hm _ _ hf

theorem Twin.call {β : Type} (env : Env) (a : Addr) {m m' : Prog F (Option β)} (h : Twin m m') : Twin (Client.call env a m) (Client.call env a m') := by
  unfold Client.call
  refine .bind (.loc rfl) fun b => ?_
  cases b with
  | false => exact .pure _
  | true =>
    refine .bind h fun r => .bind (.loc rfl) fun b => ?_
    cases b <;> exact .pure _

theorem Twin.each {α β : Type} {f f' : α → Prog F β} (h : ∀ a, Twin (f a) (f' a)) : ∀ l : List α, Twin (Prog.each f l) (Prog.each f' l)
  | [] => .pure _
  | x :: xs => by
    unfold Prog.each
    exact .bind (h x) fun y => .bind (Twin.each h xs) fun ys => .pure _

theorem Twin.fetch (env : Env) (addrs : List Addr) {f f' : Addr → Prog F (Option (List F))} (h : ∀ a, Twin (f a) (f' a)) :
    Twin (fetchVecs env addrs f) (fetchVecs env addrs f') := by
  unfold fetchVecs
  exact .bind (.loc rfl) fun _ => .bind (.each (fun a => .bind (h a) fun r => .pure _) _) fun _ => .bind (.loc rfl) fun _ => .pure _

theorem Twin.bestFit {v v' : List F} (h : Indistinct v v') (env : Env) (addrs : List Addr) {f f' : Addr → Prog F (Option (List F))}
    (hf : ∀ a, Twin (f a) (f' a)) : Twin (Nodes.bestFitNodes env knnCos addrs v f) (Nodes.bestFitNodes env knnCos addrs v' f') := by
  unfold Nodes.bestFitNodes
  exact .bind (.fetch env addrs hf) fun rsp => .loc (by rw [knn_same h])

theorem Twin.vec (env : Env) (a : Addr) (ns : NS) : Twin (F := F) (Client.vec env a ns) (Client.vec env a ns) :=
  .call env a (.access a ns (fun _ _ => rfl) fun _ _ hm => Go.wlp_of_wp hm)

theorem Twin.centroidVec {v v' : List F} (h : Indistinct v v') (env : Env) (a : Addr) (ns : NS) :
    Twin (Client.nearestCentroidVec env a ns v) (Client.nearestCentroidVec env a ns v') := by
  refine .call env a (.access a ns (fun m hm => by rw [nearest_same h hm.knn]) fun m p hm => ?_)
  apply Go.wlp_bind
  refine Go.wlp_mono (Q := fun r _ => CosM r.2) ?_ fun r p' hr => ?_
  · unfold Manager.nearestCentroids
    refine Go.wlp_bind ?_
    intro is p1 _
    split
    · exact fun r p' e => by cases e; exact hm
    · refine Go.wlp_bind fun _ p2 _ => Go.wlp_bind fun cs p3 _ => ?_
      intro r p' e; cases e; exact hm
  · cases r.1.getD [] with
    | nil => intro x p' e; cases e; exact hr
    | cons c cs => intro x p' e; cases e; exact hr

theorem Twin.lookup {v v' : List F} (h : Indistinct v v') (env : Env) (a : Addr) (ns : NS) (k : Int) (drain : Bool) :
    Twin (Client.knnLookup env a ns v k drain) (Client.knnLookup env a ns v' k drain) := by
  unfold Client.knnLookup
  refine .bind (.loc rfl) fun _ => .bind (.call env a ?_) fun r => .pure _
  exact .access a ns (fun m hm => lookup_same h env.tk hm k drain) fun m p hm => lookup_keeps v env.tk hm k drain p

theorem Twin.getFrom {v v' : List F} (h : Indistinct v v') (env : Env) (ns : NS) (n : Int) (drain : Bool) :
    ∀ (as : List Addr) (res : List (DataPoint F)), Twin (Dps.getFrom env ns v n drain as res) (Dps.getFrom env ns v' n drain as res)
  | [], res => .pure _
  | a :: as, res => by
    unfold Dps.getFrom
    refine .bind (.lookup h env a ns _ drain) fun l => ?_
    split
    · exact .pure _
    · exact Twin.getFrom h env ns n drain as _

theorem Twin.get {v v' : List F} (h : Indistinct v v') (env : Env) (addrs : List Addr) (ns : NS) (n : Int) (drain : Bool) :
    Twin (Dps.getDataPoints env addrs ns v n drain) (Dps.getDataPoints env addrs ns v' n drain) := by
  unfold Dps.getDataPoints
  exact .bind (.loc rfl) fun _ => .getFrom h env ns n drain addrs []

theorem Twin.query {v v' : List F} (h : Indistinct v v') (env : Env) (addrs : List Addr) (ns : NS) (accurate : Bool) (n : Int) (drain : Bool) :
    Twin (Api.queryDataPoint env addrs (some ⟨ns, accurate, v, n, drain⟩)) (Api.queryDataPoint env addrs (some ⟨ns, accurate, v', n, drain⟩)) := by
  unfold Api.queryDataPoint
  refine .bind ?_ fun l => .pure _
  cases accurate with
  | true => exact .bind (.bestFit h env addrs fun a => .centroidVec h env a ns) fun as => .get h env as ns n drain
  | false => exact .bind (.bestFit h env addrs fun a => .vec env a ns) fun as => .get h env as ns n drain

/-- A positive multiple has the same similarities. -/
theorem indistinct_scale {a : ℝ} (ha : 0 < a) (v : List ℝ) : Indistinct v (v.map (a * ·)) := by
  intro u
  have hin : ∀ u : List ℝ, inner (v.map (a * ·)) u = a * inner v u := by
    intro u
    unfold Spec.inner
    rw [List.zip_map_left, List.map_map, ← List.sum_map_mul_left]
    congr 2
    funext x; simp only [Function.comp, Prod.map, id]; ring
  have hself : inner (v.map (a * ·)) (v.map (a * ·)) = a * a * inner v v := by
    unfold Spec.inner
    rw [List.zip_map, List.map_map, ← List.sum_map_mul_left]
    congr 2
    funext x; simp only [Function.comp, Prod.map]; ring
  have hnz : NonZero (v.map (a * ·)) ↔ NonZero v := by
    have h1 := inner_self_eq_zero v
    have h2 := inner_self_eq_zero (v.map (a * ·))
    rw [hself, mul_eq_zero, or_iff_right (mul_pos ha ha).ne'] at h2
    tauto
  by_cases hl : v.length = u.length
  · have hl' : (v.map (a * ·)).length = u.length := by rw [List.length_map, hl]
    have hform : inner (v.map (a * ·)) u / len (v.map (a * ·)) / len u = inner v u / len v / len u := by
      unfold len
      rw [hin, hself, Real.sqrt_mul (mul_self_nonneg a), Real.sqrt_mul_self ha.le, mul_div_mul_left _ _ ha.ne']
    by_cases hv : NonZero v
    · rw [cos_real hl hv, cos_real hl' (hnz.2 hv), hform]
    · by_cases hu : NonZero u
      · rw [cos_real' hl hu, cos_real' hl' hu, hform]
      · rw [C04_cos_zero _ _ hl hv hu, C04_cos_zero _ _ hl' (mt hnz.1 hv) hu]
  · unfold cosineSimilarity
    rw [List.length_map, if_pos hl, if_pos hl]

end Direction

open Direction

/-- C136 in any arithmetic: two vectors that no vector can tell apart by its similarity have the same HTTP query - the same answer, the
same effect on the nodes, the same panic -, however messages get lost and whatever the clock shows. -/
theorem C136_indistinct {v v' : List F} (h : Indistinct v v') (env : Env) {D : NS → Nat} {w : World F} (hw : WorldOK D w) (addrs : List Addr) (ns : NS)
    (accurate : Bool) (n : Int) (drain : Bool) (p : Nat) :
    (Api.queryDataPoint env addrs (some ⟨ns, accurate, v', n, drain⟩)).run w p = (Api.queryDataPoint env addrs (some ⟨ns, accurate, v, n, drain⟩)).run w p :=
  (Twin.query h env addrs ns accurate n drain).run w p (CosW.of hw)

/-- C136 in exact arithmetic: a query for a positive multiple of a vector is the query for the vector. -/
theorem C136_query_partial {a : ℝ} (ha : 0 < a) (v : List ℝ) (env : Env) {D : NS → Nat} {w : World ℝ} (hw : WorldOK D w) (addrs : List Addr) (ns : NS)
    (accurate : Bool) (n : Int) (drain : Bool) (p : Nat) :
    (Api.queryDataPoint env addrs (some ⟨ns, accurate, v.map (a * ·), n, drain⟩)).run w p =
      (Api.queryDataPoint env addrs (some ⟨ns, accurate, v, n, drain⟩)).run w p :=
  C136_indistinct (indistinct_scale ha v) env hw addrs ns accurate n drain p

/-- C136 for the methods of a manager, in exact arithmetic. -/
theorem C136_manager_partial {a : ℝ} (ha : 0 < a) (v : List ℝ) (tk : Nat → Int) {m : Manager ℝ} (hm : ManagerOK m) (hk : m.knn = knnCos) (n : Int)
    (drain : Bool) :
    m.knnLookup tk (v.map (a * ·)) n drain = m.knnLookup tk v n drain ∧ m.nearestCentroids (v.map (a * ·)) n drain = m.nearestCentroids v n drain :=
  ⟨lookup_same (indistinct_scale ha v) tk (CosM.of hm hk) n drain, nearest_same (indistinct_scale ha v) hk n drain⟩

open ServerExample SameExample

namespace DirectionExample

/-- Two nodes with one datapoint each, in exact arithmetic. -/
noncomputable def apart : World ℝ :=
  nodes2 (man [0, 1] [cen [0, 1] [ApproxExample.rpt 0 1]]) (man [2, 0] [cen [2, 0] [ApproxExample.rpt 2 0]]) (man [3, 4] [])

theorem apart_ok : WorldOK (fun _ => 2) apart := nodes2_ok (man_mok rfl (by simp [cen, ApproxExample.rpt]) (by simp [cen]))
    (man_mok rfl (by simp [cen, ApproxExample.rpt]) (by simp [cen])) (man_mok rfl (by simp) (by simp))

end DirectionExample
open DirectionExample

/-- The queries for (6,3) and (2,1), in the order of arrival of `turning`, draining or not. -/
example (accurate drain : Bool) (n : Int) (p : Nat) :
    (Api.queryDataPoint turning [1, 2] (some ⟨7, accurate, [(6 : ℝ), 3], n, drain⟩)).run apart p =
      (Api.queryDataPoint turning [1, 2] (some ⟨7, accurate, [(2 : ℝ), 1], n, drain⟩)).run apart p := by
  have h := C136_query_partial (a := 3) (by norm_num) [2, 1] turning apart_ok [1, 2] 7 accurate n drain p
  norm_num at h
  exact h

/-- (6,3) and (2,1) cannot be told apart; (2,1) and (1,2) can. -/
example : Indistinct [(2 : ℝ), 1] [6, 3] ∧ ¬ Indistinct [(2 : ℝ), 1] [1, 2] := by
  constructor
  · have h := indistinct_scale (a := 3) (by norm_num) [2, 1]
    norm_num at h
    exact h
  · intro h
    have h := h [1, 0]
    rw [cos_real (by simp) (by simp [NonZero]), cos_real (by simp) (by simp [NonZero])] at h
    norm_num [Spec.inner, len] at h
    have h5 : (0 : ℝ) < √5 := Real.sqrt_pos.2 (by norm_num)
    field_simp at h
    norm_num at h

/-- A negative factor is another question: the opposite vector ranks the datapoints the other way round. -/
example : ¬ Indistinct [(2 : ℝ), 1] [-2, -1] := by
  intro h
  have h := h [1, 0]
  rw [cos_real (by simp) (by simp [NonZero]), cos_real (by simp) (by simp [NonZero])] at h
  norm_num [Spec.inner, len] at h

set_option synthInstance.maxSize 1000 in
/-- C136 is false of the code: the sum of squares in `norm` overflows for long vectors, and all similarities are 0. The query for (1,0)
is answered with (2,0); the query for 2^600 times as much is answered with (0,1), the datapoint of the node that happened to answer first. -/
theorem C136_refuted (accurate : Bool) : ∃ r p', (do
      let x ← (Api.queryDataPoint env [1, 2] (some ⟨7, accurate, [.ofInt 1, .ofInt 0], 1, false⟩)).run unlike
      let y ← (Api.queryDataPoint env [1, 2] (some ⟨7, accurate, [.ofInt (2 ^ 600), .ofInt 0], 1, false⟩)).run unlike
      pure (x.1, y.1) : Go ((Nat × List (Api.DP F64)) × (Nat × List (Api.DP F64)))) 0 = .ok (r, p') ∧
    r = ((200, Api.dataPointsToDPs [dp 2 0]), (200, Api.dataPointsToDPs [dp 0 1])) := by
  cases accurate
  · exact exists_of_run (f := id) (by decide +kernel)
  · exact exists_of_run (f := id) (by decide +kernel)

end Trypo
