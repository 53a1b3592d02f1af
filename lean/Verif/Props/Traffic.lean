import Verif.Props.Visits
import Verif.Props.NoPanic

/-!
# C145: how often RPC requests and tasks of the event loop turn to a node
-/

namespace Trypo
open GoFloat Spec EventLoop

variable {F : Type} {α β : Type} {W : World F → Prop} {a : Addr}

/-! ### How much a drain takes out -/

namespace Centroid
variable [GoFloat F]

theorem np_drainOrdered_few (tk : Nat → Int) (c : Centroid F) (hc : CLax c) (k : Nat) (p : Nat) :
    Go.wp (c.drainOrdered tk k) (fun r _ => Kept c r.2 ∧ r.1.length ≤ k) p := by
  unfold drainOrdered
  simp only [Go.wp_bind, Go.wp_checkMake, Go.wp_lift]
  refine ⟨by omega, Go.wp_mono (np_genAll tk _ c 0 p (Nat.zero_le _) (by omega)) (fun g p1 hg => ?_)⟩
  obtain ⟨is, e, h1, h2, h0⟩ := hc.2 c.vec g.1 k (by omega)
  have h3 : ∀ i ∈ is, i < g.2.dps.length := fun i hi => by have := h2 i hi; omega
  refine ⟨is, e, Go.wp_mono (wp_getAll g.2 is p1 h3) (fun res p2 hres => Go.wp_mono (np_rmAll g.2 h1 h3 p2) (fun c' p3 h4 => ?_))⟩
  have := congrArg List.length hres.2
  simp only [List.length_map] at this
  exact ⟨hg.1.trans h4, by show res.length ≤ k; omega⟩

end Centroid

namespace Manager
variable [GoFloat F]

theorem np_drainLoop_few {f : Centroid F → Int → Go (List (DataPoint F) × Centroid F)}
    (hf : ∀ c (k : Nat) p, CLax c → Go.wp (f c k) (fun r _ => Kept c r.2 ∧ r.1.length ≤ k) p) :
    ∀ (l : List (Nat × Nat)) (m : Manager F) (res : List (DataPoint F)) (p : Nat),
    MLax m → (∀ e ∈ l, e.1 < m.centroids.length) →
    Go.wp (drainLoop f l m res) (fun r _ => r.1.length ≤ res.length + (l.map (fun e => e.2)).sum) p
  | [], m, res, p, hm, _ => by
    unfold drainLoop
    rw [Go.wp_pure]
    simp
  | (i, k) :: l, m, res, p, hm, h => by
    unfold drainLoop
    rw [Go.wp_bind]
    refine Go.wp_mono (np_on (Q := fun o : List (DataPoint F) => o.length ≤ k) hm (h _ (List.mem_cons_self ..)) _ (fun c p hc => hf c k p hc)) (fun r p1 hr => ?_)
    refine Go.wp_mono (np_drainLoop_few hf l r.2 _ p1 hr.1 (fun e he => by rw [hr.2.1]; exact h e (List.mem_cons_of_mem _ he))) (fun r' _ h' => ?_)
    have := hr.2.2
    rw [List.length_append] at h'
    simp only [List.map_cons, List.sum_cons]
    omega

theorem np_drainOrdered_few (tk : Nat → Int) {ord : List (Nat × Nat) → List (Nat × Nat)} (ho : ∀ l, (ord l).Perm l) {m : Manager F} (hm : MLax m)
    {n : Int} (hn : 0 ≤ n) (p : Nat) : Go.wp (m.drainOrdered tk ord n) (fun r _ => r.1.length ≤ max n.toNat 1) p := by
  unfold drainOrdered
  simp only [Go.wp_bind, Go.wp_checkMake]
  refine ⟨hn, Go.wp_mono (np_drainLoop_few (fun c k p hc => Centroid.np_drainOrdered_few tk c hc k p) _ m [] p hm (ord_lt ho)) (fun r _ h => ?_)⟩
  have := ord_sum ho m n
  simp at h
  omega

end Manager

/-! ### Requests -/

theorem pays_weaken {p : Prog F α} {n m : Nat} {Q : α → Nat → Prop} (hn : n ≤ m) (hp : ∀ d, Pays W a p (n + d) Q) : Pays W a p m Q := by
  obtain ⟨d, rfl⟩ := Nat.exists_eq_add_of_le hn
  exact hp d

/-- An access whose result is known to have a property. -/
theorem pays_access_ends (b : Addr) (ns : NS) (f : Manager F → Go (β × Manager F)) {R : β → Prop}
    (hf : ∀ (w : World F) (i : Nat) (s : NS × Manager F), W w → w.heap[i]? = some s → Ends (f s.2) (fun r => R r.1)) (n : Nat) :
    Pays W a (Server.access b ns f) (([b] : List Addr).count a + n) (fun o n' => n ≤ n' ∧ ∀ x, o = some x → R x) := by
  refine ⟨n, by simp [visited, List.count_singleton], fun o _ => ?_⟩
  cases o with
  | none => exact ⟨Nat.le_refl n, by simp⟩
  | some i =>
    refine ⟨n, by simp [visited], ?_⟩
    rintro x ⟨w, p, w', p', hw, e⟩
    refine ⟨Nat.le_refl n, ?_⟩
    rintro _ ⟨⟩
    simp only [Act.run] at e
    cases hs : w.heap[i]? with
    | none => rw [hs] at e; cases e
    | some s =>
      rw [hs] at e
      simp only [Bind.bind, StateT.bind, Except.bind] at e
      cases hm : f s.2 p with
      | error _ => rw [hm] at e; cases e
      | ok r =>
        obtain ⟨r, q⟩ := r
        rw [hm] at e
        cases e
        exact hf w i s hw hs p r q hm

set_option linter.unusedSectionVars false

section
variable [GoFloat F] [LawfulCmp F] {env : Env} (he : EnvOK env)
include he

/-- Worlds in which the searches of all managers keep their contract. -/
abbrev Lax : World F → Prop := WHas (.of MLax)

theorem pays_drainOrdered (b : Addr) (ns : NS) {k : Int} (hk : 0 ≤ k) (n : Nat) :
    Pays Lax a (Server.drainOrdered env b ns k : Prog F _) (([b] : List Addr).count a + n)
      (fun o n' => n ≤ n' ∧ ∀ x, o = some x → x.length ≤ max k.toNat 1) := by
  refine pays_access_ends b ns _ (fun w i s hw hs => ?_) n
  have hm : MLax s.2 := hw.slots i s hs
  intro p r p' e
  have h : Go.wp (do let ord ← env.mapOrder; s.2.drainOrdered env.tk ord k) (fun r _ => r.1.length ≤ max k.toNat 1) p := by
    rw [Go.wp_bind]
    exact Go.wp_iff.2 ⟨_, _, rfl, Manager.np_drainOrdered_few env.tk (fun l => reorder_perm (he.perm p l.length)) hm hk _⟩
  obtain ⟨r', q, h1, h2⟩ := Go.wp_iff.1 h
  rw [e] at h1
  cases h1
  exact h2

theorem pays_distributeTo (fac : Factory F) (ns : NS) (addrs : List Addr) (dp : DataPoint F) : ∀ (is : List Nat) (n : Nat),
    Pays W a (Server.distributeTo env fac ns addrs dp is) ((is.filterMap (fun i => addrs[i]?)).count a + n) (fun _ n' => n ≤ n')
  | [], n => pays_pure (by simp)
  | i :: is, n => by
    unfold Server.distributeTo
    refine pays_bind ?_ _ _ (pays_loc (R := fun x => addrs[i]? = some x) (fun p r p' h => ?_) _)
    · rintro x n1 ⟨rfl, hx⟩
      rw [List.filterMap_cons_some hx]
      have e : (x :: is.filterMap (fun i => addrs[i]?)).count a + n =
          ([x] : List Addr).count a + ((is.filterMap (fun i => addrs[i]?)).count a + n) := by
        rw [← List.singleton_append, List.count_append]; omega
      rw [e]
      refine pays_bind (fun ok n1 h1 => ?_) _ _ (pays_addDataPoint he fac x ns dp _)
      cases ok with
      | true => exact pays_pure (by omega)
      | false => exact pays_weaken h1 (fun d => by
          rw [Nat.add_assoc]
          exact pays_mono (fun _ _ h => by omega) _ _ (pays_distributeTo fac ns addrs dp is (n + d)))
    · unfold Go.idx at h
      cases hx : addrs[i]? with
      | none => rw [hx] at h; cases h
      | some x => rw [hx] at h; cases h; rfl

theorem pays_distributeDP (fac : Factory F) (ns : NS) {addrs : List Addr} {remote : List (Addr × List F)} (hr : (remote.map (fun q => q.1)).Subperm addrs)
    (dp : DataPoint F) (n : Nat) :
    Pays W a (Server.distributeDP env fac ns remote dp) (addrs.count a + n) (fun _ n' => n ≤ n') := by
  unfold Server.distributeDP
  obtain ⟨res, k1, k2⟩ := knnCos_searchesBest dp.vec (remote.map (fun q => q.2)) remote.length
  obtain ⟨chosen, c1, c2, c3⟩ := kbest_all k2
  clear c3
  refine pays_bind ?_ _ _ (pays_loc (R := fun is => is = res) (fun p r p' h => ?_) _)
  · rintro is n1 ⟨rfl, rfl⟩
    have e : is.filterMap (fun i => (remote.map (fun q => q.1))[i]?) = chosen.map (fun q => q.1) := by
      clear k1 k2 c2
      induction c1 with
      | nil => rfl
      | cons h _ ih => rw [List.filterMap_cons_some (b := _) (by rw [List.getElem?_map, h]; rfl), ih]; rfl
    refine pays_weaken (n := (is.filterMap (fun i => (remote.map (fun q => q.1))[i]?)).count a + n) ?_ (fun d => ?_)
    · have h1 : (chosen.map (fun q => q.1)).Subperm addrs := ((c2.map _).subperm.trans (List.filter_sublist.map _).subperm).trans hr
      have := h1.count_le a
      rw [e]; omega
    · rw [Nat.add_assoc]
      exact pays_mono (fun _ _ h => by omega) _ _ (pays_distributeTo he fac ns _ dp is (n + d))
  · have h : (Go.lift (knnCos dp.vec (remote.map (fun q => q.2)) remote.length) : Go (List Nat)) p = .ok (r, p') := h
    rw [k1] at h
    cases h
    rfl

theorem pays_putBack (b : Addr) (ns : NS) (dp : DataPoint F) (n : Nat) :
    Pays W a (Server.putBack env b ns dp) (([b] : List Addr).count a + n) (fun _ n' => n ≤ n') := by
  unfold Server.putBack
  exact pays_bind (Q := fun _ n' => n ≤ n') (R := fun _ n' => n ≤ n') (f := fun _ => pure ()) (fun _ _ h => pays_pure h) _ _ (pays_access b ns _ n)

theorem pays_fastLoop (fac : Factory F) (b : Addr) (ns : NS) {addrs : List Addr} {remote : List (Addr × List F)}
    (hr : (remote.map (fun q => q.1)).Subperm addrs) : ∀ (dps : List (DataPoint F)) (n : Nat),
    Pays W a (Server.distributeFastLoop env fac b ns remote dps) (dps.length * (addrs.count a + ([b] : List Addr).count a) + n) (fun _ n' => n ≤ n')
  | [], n => pays_pure (by simp)
  | dp :: dps, n => by
    unfold Server.distributeFastLoop
    have e : (dp :: dps).length * (addrs.count a + ([b] : List Addr).count a) + n =
        addrs.count a + (([b] : List Addr).count a + (dps.length * (addrs.count a + ([b] : List Addr).count a) + n)) := by
      rw [List.length_cons, Nat.succ_mul]; omega
    rw [e]
    refine pays_bind (fun ok n1 h1 => ?_) _ _ (pays_distributeDP he fac ns hr dp _)
    have step : ∀ n2, dps.length * (addrs.count a + ([b] : List Addr).count a) + n ≤ n2 →
        Pays W a (Server.distributeFastLoop env fac b ns remote dps) n2 (fun _ n' => n ≤ n') := fun n2 h2 => pays_weaken h2 (fun d => by
      rw [Nat.add_assoc]
      exact pays_mono (fun _ _ h => by omega) _ _ (pays_fastLoop fac b ns hr dps (n + d)))
    cases ok with
    | true => exact step n1 (by omega)
    | false =>
      refine pays_weaken h1 (fun d => ?_)
      rw [Nat.add_assoc]
      exact pays_bind (fun _ n2 h2 => step n2 (by omega)) _ _ (pays_putBack he b ns dp _)

theorem pays_accurateLoop (fac : Factory F) (b : Addr) (ns : NS) (addrs : List Addr) : ∀ (dps : List (DataPoint F)) (n : Nat),
    Pays W a (Server.distributeAccurateLoop env fac b ns addrs dps) (dps.length * (2 * addrs.count a + ([b] : List Addr).count a) + n)
      (fun _ n' => n ≤ n')
  | [], n => pays_pure (by simp)
  | dp :: dps, n => by
    unfold Server.distributeAccurateLoop
    have e : (dp :: dps).length * (2 * addrs.count a + ([b] : List Addr).count a) + n =
        addrs.count a + (addrs.count a + (([b] : List Addr).count a + (dps.length * (2 * addrs.count a + ([b] : List Addr).count a) + n))) := by
      rw [List.length_cons, Nat.succ_mul]; omega
    rw [e]
    refine pays_bind ?_ _ _ (pays_fetchVecs he addrs (pays_nearestCentroidVec he ns dp.vec) _)
    rintro remote n0 ⟨h0, hr⟩
    refine pays_weaken h0 (fun d0 => ?_)
    rw [Nat.add_assoc]
    refine pays_bind (fun ok n1 h1 => ?_) _ _ (pays_distributeDP he fac ns hr dp _)
    have step : ∀ n2, dps.length * (2 * addrs.count a + ([b] : List Addr).count a) + n ≤ n2 →
        Pays W a (Server.distributeAccurateLoop env fac b ns addrs dps) n2 (fun _ n' => n ≤ n') := fun n2 h2 => pays_weaken h2 (fun d => by
      rw [Nat.add_assoc]
      exact pays_mono (fun _ _ h => by omega) _ _ (pays_accurateLoop fac b ns addrs dps (n + d)))
    cases ok with
    | true => exact step n1 (by omega)
    | false =>
      refine pays_weaken (n := ([b] : List Addr).count a + (dps.length * (2 * addrs.count a + ([b] : List Addr).count a) + n)) (by omega) (fun d => ?_)
      rw [Nat.add_assoc]
      exact pays_bind (fun _ n2 h2 => step n2 (by omega)) _ _ (pays_putBack he b ns dp _)

/-- The allowance of `DistributeDataPointsFast`. -/
theorem pays_distributeFast (fac : Factory F) (b : Addr) (ns : NS) {k : Int} (hk : 0 ≤ k) (addrs : List Addr) (n : Nat) :
    Pays Lax a (Server.distributeFast env fac b ns k addrs)
      ((1 + max k.toNat 1) * (addrs.count a + ([b] : List Addr).count a) + n) (fun _ n' => n ≤ n') := by
  unfold Server.distributeFast
  refine pays_bind ?_ _ _ (pays_loc (ends_any _) _)
  rintro _ n0 ⟨rfl, _⟩
  have e : (1 + max k.toNat 1) * (addrs.count a + ([b] : List Addr).count a) + n = ([b] : List Addr).count a +
      (addrs.count a + (max k.toNat 1 * (addrs.count a + ([b] : List Addr).count a) + n)) := by rw [Nat.add_mul, Nat.one_mul]; omega
  rw [e]
  refine pays_bind ?_ _ _ (pays_drainOrdered he b ns hk _)
  rintro o n1 ⟨h1, h2⟩
  cases o with
  | none => exact pays_pure (by omega)
  | some dps =>
    have hl := h2 dps rfl
    show Pays Lax a (if dps.length = 0 ∨ addrs.length = 0 then pure (some ()) else _) n1 _
    split
    · exact pays_pure (by omega)
    · refine pays_weaken h1 (fun d => ?_)
      rw [Nat.add_assoc]
      refine pays_bind ?_ _ _ (pays_fetchVecs he addrs (pays_vec he ns) _)
      rintro remote n2 ⟨h3, hr⟩
      refine pays_bind (Q := fun _ n' => n ≤ n') (R := fun _ n' => n ≤ n') (f := fun _ => pure (some ())) (fun _ _ h => pays_pure h) _ _ ?_
      refine pays_weaken (n := dps.length * (addrs.count a + ([b] : List Addr).count a) + n) ?_ (fun d => ?_)
      · have := Nat.mul_le_mul_right (addrs.count a + ([b] : List Addr).count a) hl
        omega
      · rw [Nat.add_assoc]
        exact pays_mono (fun _ _ h => by omega) _ _ (pays_fastLoop he fac b ns hr dps (n + d))

/-- The allowance of `DistributeDataPointsAccurate`. -/
theorem pays_distributeAccurate (fac : Factory F) (b : Addr) (ns : NS) {k : Int} (hk : 0 ≤ k) (addrs : List Addr) (n : Nat) :
    Pays Lax a (Server.distributeAccurate env fac b ns k addrs)
      (2 * max k.toNat 1 * addrs.count a + (1 + max k.toNat 1) * ([b] : List Addr).count a + n) (fun _ n' => n ≤ n') := by
  unfold Server.distributeAccurate
  refine pays_bind ?_ _ _ (pays_loc (ends_any _) _)
  rintro _ n0 ⟨rfl, _⟩
  have e : 2 * max k.toNat 1 * addrs.count a + (1 + max k.toNat 1) * ([b] : List Addr).count a + n = ([b] : List Addr).count a +
      (max k.toNat 1 * (2 * addrs.count a + ([b] : List Addr).count a) + n) := by ring
  rw [e]
  refine pays_bind ?_ _ _ (pays_drainOrdered he b ns hk _)
  rintro o n1 ⟨h1, h2⟩
  cases o with
  | none => exact pays_pure (by omega)
  | some dps =>
    have hl := h2 dps rfl
    show Pays Lax a (if dps.length = 0 ∨ addrs.length = 0 then pure (some ()) else _) n1 _
    split
    · exact pays_pure (by omega)
    · refine pays_bind (Q := fun _ n' => n ≤ n') (R := fun _ n' => n ≤ n') (f := fun _ => pure (some ())) (fun _ _ h => pays_pure h) _ _ ?_
      refine pays_weaken (n := dps.length * (2 * addrs.count a + ([b] : List Addr).count a) + n) ?_ (fun d => ?_)
      · have := Nat.mul_le_mul_right (2 * addrs.count a + ([b] : List Addr).count a) hl
        omega
      · rw [Nat.add_assoc]
        exact pays_mono (fun _ _ h => by omega) _ _ (pays_accurateLoop he fac b ns addrs dps (n + d))

theorem pays_answer {f : β → Answer F} {m : Prog F (Option β)} {n : Nat} {Q : Option β → Nat → Prop} (h : Pays W a m n Q) :
    Pays W a (answer f m) n (fun _ _ => True) := by
  unfold answer
  exact pays_bind (fun o _ _ => by cases o <;> exact pays_pure trivial) _ _ h

/-- The allowance of all other requests but `StealCentroid`. -/
theorem pays_request (fac : Factory F) {r : Request F} (hr : r.onManager env ≠ none) :
    Pays W a (r.serve env fac) (([r.node] : List Addr).count a) (fun _ _ => True) := by
  have acc : ∀ {β : Type} (f : β → Answer F) (b : Addr) (ns : NS) (g : Manager F → Go (β × Manager F)),
      Pays W a (answer f (Server.access b ns g)) (([b] : List Addr).count a) (fun _ _ => True) := fun f b ns g =>
    pays_answer he (pays_access b ns g 0)
  cases r with
  | add b ns d => 
    refine pays_bind (Q := fun _ _ => True) (fun _ _ _ => pays_pure trivial) _ _ ?_
    unfold Server.addDataPoint
    refine pays_bind (fun o n1 h1 => ?_) _ _ (pays_access b ns _ 0)
    cases o with
    | some x => exact pays_pure trivial
    | none =>
      refine pays_bind ?_ _ _ (pays_loc (ends_any _) _)
      rintro m n2 ⟨rfl, _⟩
      exact ⟨n2, by simp [visited], fun _ _ => trivial⟩
  | distributeFast => exact absurd rfl hr
  | distributeAccurate => exact absurd rfl hr
  | stealCentroid => exact absurd rfl hr
  | _ => exact acc _ _ _ _

/-- Without an allowance nothing is left. -/
theorem pays_zero {Q : α → Nat → Prop} : ∀ (p : Prog F α), Pays W a p 0 Q → Pays W a p 0 (fun x n => n = 0 ∧ Q x n)
  | .ret x, h => ⟨rfl, h⟩
  | .act c k, ⟨n', h1, h2⟩ => by
    obtain rfl : n' = 0 := by omega
    exact ⟨0, h1, fun b hb => pays_zero (k b) (h2 b hb)⟩

theorem pays_free {b : Addr} (hb : a ≠ b) {p : Prog F α} (h : Pays W a p (([b] : List Addr).count a + 0) (fun _ n' => 0 ≤ n')) :
    Pays W a p 0 (fun _ n => n = 0) := by
  have e : ([b] : List Addr).count a + 0 = 0 := by simp [Ne.symm hb]
  rw [e] at h
  exact pays_mono (fun _ _ h => h.1) _ _ (pays_zero he p h)

theorem pays_stealLoop {b src : Addr} (hb : a ≠ b) (hs : a ≠ src) (ns : NS) (v : List F) (limit : Int) : ∀ (fuel k : Nat),
    Pays W a (Server.stealLoop env b ns src v limit fuel k) 0 (fun _ n => n = 0)
  | 0, k => pays_pure rfl
  | fuel + 1, k => by
    unfold Server.stealLoop
    split
    · refine pays_bind (Q := fun _ n => n = 0) ?_ _ _ ?_
      · rintro ⟨e, o⟩ n rfl
        rcases o with _ | _ | ⟨c, cs⟩
        · exact pays_pure rfl
        · exact pays_pure rfl
        · refine pays_bind (Q := fun _ n => n = 0) ?_ _ _ (pays_free he hb (pays_access b ns _ 0))
          rintro o n rfl
          exact pays_stealLoop hb hs ns v limit fuel _
      · unfold Client.nearestCentroids
        refine pays_bind (Q := fun _ n => n = 0) ?_ _ _ (pays_free he hs (pays_call env src (pays_access src ns _ 0)))
        rintro r n rfl
        refine pays_bind (Q := fun _ n => n = 0) ?_ _ _ (pays_mono (fun _ _ h => h.1) _ _ (pays_loc (ends_any _) _))
        rintro cs n rfl
        exact pays_pure rfl
    · exact pays_pure rfl

theorem pays_stealCentroid (fac : Factory F) (fuel : Nat) {b src : Addr} (hb : a ≠ b) (hs : a ≠ src) (ns : NS) (limit : Int) :
    Pays W a (Server.stealCentroid env fac fuel b ns src limit) 0 (fun _ _ => True) := by
  have rest : ∀ v, Pays W a (Server.stealWith env fuel b ns src limit v) 0 (fun _ _ => True) := fun v => by
    unfold Server.stealWith
    refine pays_bind ?_ _ _ (pays_stealLoop he hb hs ns v limit fuel 0)
    rintro q n rfl
    refine pays_bind (Q := fun _ n => n = 0) ?_ _ _ (pays_free he hb (pays_access b ns _ 0))
    exact fun _ _ _ => pays_pure trivial
  unfold Server.stealCentroid
  refine pays_bind ?_ _ _ (pays_free he hb (pays_access b ns _ 0))
  rintro o n rfl
  cases o with
  | some v => exact rest v
  | none =>
    refine pays_bind ?_ _ _ (pays_free he hs (pays_vec he ns src 0))
    rintro rv n rfl
    show Pays W a (match rv.getD [] with | [] => _ | y :: ys => _) 0 _
    split
    · exact pays_pure trivial
    · refine pays_bind (Q := fun _ n => n = 0) ?_ _ _ (pays_mono (fun _ _ h => h.1) _ _ (pays_loc (ends_any _) _))
      rintro m n rfl
      exact ⟨0, by simp [visited], fun _ _ => rest _⟩

theorem pays_names (b : Addr) (n : Nat) : Pays W a (Client.namespaces env b : Prog F _) (([b] : List Addr).count a + n) (fun _ n' => n ≤ n') := by
  unfold Client.namespaces
  refine pays_bind (Q := fun _ n' => n ≤ n') (R := fun _ n' => n ≤ n') (f := fun r => pure (r.getD [])) (fun _ _ h => pays_pure h) _ _
    (pays_call env b ?_)
  refine pays_bind (Q := fun _ n' => n ≤ n') (R := fun _ n' => n ≤ n') (f := fun b => pure (some b)) (fun _ _ h => pays_pure h) _ _ ?_
  unfold Server.namespaces
  refine ⟨n, by simp [visited, List.count_singleton], fun l _ => ?_⟩
  exact pays_mono (fun _ _ h => by omega) _ _ (pays_loc (ends_any _) n)

theorem pays_task (fac : Factory F) (fuel : Nat) (cfg : Config) {t : TaskId} {f : NS → Call} (ht : maintenance cfg t = some f) :
    Pays W a (EventLoop.task env fac fuel cfg t : Prog F _) (([cfg.loc] : List Addr).count a) (fun _ _ => True) := by
  have st : ∀ g, Pays W a (startAll env cfg g : Prog F _) (([cfg.loc] : List Addr).count a) (fun _ _ => True) := fun g =>
    pays_bind (fun _ _ _ => pays_pure trivial) _ _ (pays_names he cfg.loc 0)
  cases t <;> first | exact st _ | cases ht

end

/-! ### Concurrent runs -/

theorem visits_le_lax [GoFloat F] {i : Nat} : ∀ (sched : List Nat) (ts : List (Prog F α)) (w : World F) (p n : Nat) (t : Prog F α), ts[i]? = some t →
    Pays Lax a t n (fun _ _ => True) → Lax w → (∀ t ∈ ts, t.NP (.of MLax) w.heap.length (fun _ => True)) → (visits sched ts w p).count (i, a) ≤ n
  | [], ts, w, p, n, t, _, _, _, _ => by simp [visits]
  | j :: sched, ts, w, p, n, t, ht, hp, hw, hn => by
    unfold visits
    split
    · rename_i β c k hj
      obtain ⟨r, p', e, h1, _, h2, h3⟩ := hn _ (List.mem_of_getElem? hj) w p (ready_of hw p) (Nat.le_refl _)
      have hn' : ∀ t ∈ ts.set j (k r.1), t.NP (.of MLax) r.2.heap.length (fun _ => True) := fun t ht => by
        rcases List.mem_or_eq_of_mem_set ht with ht | rfl
        · exact np_mono h2 (hn t ht) (fun _ h => h)
        · exact h3
      rw [e]
      by_cases hij : j = i
      · subst hij
        rw [ht] at hj
        cases hj
        obtain ⟨n', rfl, h⟩ := hp
        rw [List.count_append]
        refine Nat.add_le_add ?_ (visits_le_lax sched _ r.2 p' n' (k r.1)
          (by rw [List.getElem?_set_self (List.getElem?_eq_some_iff.1 ht).1]) (h r.1 ⟨w, p, r.2, p', hw, e⟩) h1 hn')
        cases hv : visited c with
        | none => simp
        | some b =>
          simp only [Option.toList_some, List.map_cons, List.map_nil, List.count_singleton, Option.some.injEq]
          by_cases hb : b = a
          · simp [hb]
          · simp [hb]
      · rw [List.count_append]
        have h0 : ((visited c).toList.map (fun b => (j, b))).count (i, a) = 0 := by
          cases visited c with
          | none => simp
          | some b => simp [hij]
        rw [h0, Nat.zero_add]
        exact visits_le_lax sched _ r.2 p' n t (by rw [List.getElem?_set_ne hij]; exact ht) hp h1 hn'
    · exact visits_le_lax sched ts w p n t ht hp hw hn

section
variable [GoFloat F] [LawfulCmp F] {env : Env} (he : EnvOK env) (fac : Factory F) (jobs : List (Job F)) {i : Nat} (sched : List Nat) (w : World F) (p : Nat)
include he

/-- C145, requests that concern one manager: at most one look into the table of the node they were sent to, none into others. -/
theorem C145_request {r : Request F} (hr : r.onManager env ≠ none) (hi : jobs[i]? = some (.rpc r)) (a : Addr) :
    (visits sched (jobs.map (fun j => j.prog env fac)) w p).count (i, a) ≤ if a = r.node then 1 else 0 := by
  have h := visits_le sched (jobs.map (fun j => j.prog env fac)) w p _ ((Job.rpc r).prog env fac) (by rw [List.getElem?_map, hi]; rfl)
    (pays_bind (fun _ _ _ => pays_pure trivial) _ _ (pays_request he fac hr (a := a)))
  refine Nat.le_trans h (Nat.le_of_eq ?_)
  by_cases e : a = r.node
  · simp [e]
  · simp [e, Ne.symm e]

/-- C145, the maintenance tasks of the event loop: at most one look into the table of the local node, none into others. -/
theorem C145_task {cfg : Config} {fuel : Nat} {t : TaskId} {f : NS → Call} (ht : maintenance cfg t = some f) (hi : jobs[i]? = some (.task cfg fuel t))
    (a : Addr) : (visits sched (jobs.map (fun j => j.prog env fac)) w p).count (i, a) ≤ if a = cfg.loc then 1 else 0 := by
  have h := visits_le sched (jobs.map (fun j => j.prog env fac)) w p _ ((Job.task cfg fuel t).prog env fac) (by rw [List.getElem?_map, hi]; rfl)
    (pays_bind (fun _ _ _ => pays_pure trivial) _ _ (pays_task he fac fuel cfg ht (a := a)))
  refine Nat.le_trans h (Nat.le_of_eq ?_)
  by_cases e : a = cfg.loc
  · simp [e]
  · simp [e, Ne.symm e]

/-- C145, `StealCentroid`: no node but its own and the one it steals from. -/
theorem C145_steal {b src : Addr} {ns : NS} {limit : Int} {fuel : Nat} (hi : jobs[i]? = some (.rpc (.stealCentroid b ns src limit fuel))) {a : Addr}
    (hb : a ≠ b) (hs : a ≠ src) : (i, a) ∉ visits sched (jobs.map (fun j => j.prog env fac)) w p := by
  refine List.count_eq_zero.1 (Nat.le_zero.1 (visits_le sched (jobs.map (fun j => j.prog env fac)) w p _
    ((Job.rpc (.stealCentroid b ns src limit fuel)).prog env fac) (by rw [List.getElem?_map, hi]; rfl) ?_))
  refine pays_bind (Q := fun _ _ => True) (fun _ _ _ => pays_pure trivial) _ _ ?_
  exact pays_bind (fun _ _ _ => pays_pure trivial) _ _ (pays_stealCentroid he fac fuel hb hs ns limit)

variable (hf : FacLax fac) (hw : WLax w) (hv : ∀ j ∈ jobs, j.counts)
include hf hw hv

/-- C145, `DistributeDataPointsFast` for `n` datapoints: every node is turned to at most `1 + n` times for each of its occurrences among the
addresses, once for its vector and once for each datapoint; the distributing node moreover once to take them out and at most `n` times to put
them back. (For 0, as for 1: C25.) -/
theorem C145_fast {b : Addr} {ns : NS} {n : Int} {addrs : List Addr} (hi : jobs[i]? = some (.rpc (.distributeFast b ns n addrs))) (a : Addr) :
    (visits sched (jobs.map (fun j => j.prog env fac)) w p).count (i, a) ≤
      (1 + max n.toNat 1) * (addrs.count a + if a = b then 1 else 0) := by
  have hn : 0 ≤ n := hv _ (List.mem_of_getElem? hi)
  have h := visits_le_lax sched (jobs.map (fun j => j.prog env fac)) w p _ ((Job.rpc (.distributeFast b ns n addrs)).prog env fac)
    (by rw [List.getElem?_map, hi]; rfl)
    (pays_bind (fun _ _ _ => pays_pure trivial) _ _ (pays_answer he (pays_distributeFast he fac b ns hn addrs 0 (a := a))))
    (whas_lax.2 hw) (fun t ht => by
      obtain ⟨j, hj, rfl⟩ := List.mem_map.1 ht
      exact np_job ⟨he.perm, he.rand⟩ (np_factory hf) (fun _ => lax_grows) (hv j hj) _)
  refine Nat.le_trans h (Nat.le_of_eq ?_)
  by_cases e : a = b
  · simp [e]
  · simp [e, Ne.symm e]

/-- C145, `DistributeDataPointsAccurate` for `n` datapoints: twice for each datapoint and occurrence among the addresses, for the nearest centroid
and to store it; the distributing node moreover `1 + n` times as above. -/
theorem C145_accurate {b : Addr} {ns : NS} {n : Int} {addrs : List Addr} (hi : jobs[i]? = some (.rpc (.distributeAccurate b ns n addrs))) (a : Addr) :
    (visits sched (jobs.map (fun j => j.prog env fac)) w p).count (i, a) ≤
      2 * max n.toNat 1 * addrs.count a + if a = b then 1 + max n.toNat 1 else 0 := by
  have hn : 0 ≤ n := hv _ (List.mem_of_getElem? hi)
  have h := visits_le_lax sched (jobs.map (fun j => j.prog env fac)) w p _ ((Job.rpc (.distributeAccurate b ns n addrs)).prog env fac)
    (by rw [List.getElem?_map, hi]; rfl)
    (pays_bind (fun _ _ _ => pays_pure trivial) _ _ (pays_answer he (pays_distributeAccurate he fac b ns hn addrs 0 (a := a))))
    (whas_lax.2 hw) (fun t ht => by
      obtain ⟨j, hj, rfl⟩ := List.mem_map.1 ht
      exact np_job ⟨he.perm, he.rand⟩ (np_factory hf) (fun _ => lax_grows) (hv j hj) _)
  refine Nat.le_trans h (Nat.le_of_eq ?_)
  by_cases e : a = b
  · simp [e]
  · simp [e, Ne.symm e]

end

open ServerExample

/-- A distribution of three datapoints and a request for a vector, step by step in turn. -/
def TrafficExample.jobs : List (Job F64) := [.rpc (.distributeFast 1 7 3 [1, 2]), .rpc (.vec 2 7), .rpc (.distributeAccurate 1 7 2 [2, 2])]

/-- C145: the node that distributes is among the addresses, node 2 too. -/
example : ∀ a, (visits ((List.replicate 60 [0, 1, 2]).flatten) (TrafficExample.jobs.map (fun j => j.prog env fac)) two 0).count (0, a) ≤
    (1 + max (3 : Int).toNat 1) * (([1, 2] : List Addr).count a + if a = 1 then 1 else 0) :=
  fun a => C145_fast env_ok fac TrafficExample.jobs _ two _ (⟨by decide, prefabs_goodSearch.1, prefabs_goodSearch.2.1⟩) (lax_of_ok two_ok)
    (by simp [TrafficExample.jobs, Job.counts, Request.counts]) (i := 0) (n := 3) (addrs := [1, 2]) (b := 1) rfl a

/-- C145: how often the three requests turn to the nodes 1 and 2 in this run. -/
example : (fun l : List (Nat × Addr) => (l.length, l.count (0, 1), l.count (0, 2), l.count (1, 2), l.count (2, 1)))
    (visits ((List.replicate 60 [0, 1, 2]).flatten) (TrafficExample.jobs.map (fun j => j.prog env fac)) two 0) = (7, 2, 3, 1, 1) := by decide +kernel

/-- The limit of `StealCentroid` does not bound how often it turns to the other node: a centroid whose datapoints have expired counts for nothing. With
limit 1, four centroids are taken from node 2, one after the other. -/
theorem C145_steal_often : ∀ (m : Manager F64), m = man [.ofInt 1, .ofInt 0] ((List.replicate 3 (cen [.ofInt 1, .ofInt 0] [⟨[.ofInt 1, .ofInt 0], [], -5, true⟩])) ++
      [cen [.ofInt 0, .ofInt 1] [dp 0 1]]) →
    (visits (List.replicate 60 0) ([Job.rpc (.stealCentroid 1 7 2 1 10)].map (fun j => j.prog env fac))
      (nodes2 (man [.ofInt 1, .ofInt 0] []) m (man [] [])) 0).count (0, 2) = 4 := by
  rintro _ rfl
  decide +kernel

end Trypo
