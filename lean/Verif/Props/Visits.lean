import Verif.Spec.Visits
import Verif.Props.Nodes
import Verif.Proofs.Neat
import Verif.Proofs.Run

/-!
# C141: how often an HTTP request turns to a node
-/

namespace Trypo
open GoFloat Spec

variable {F : Type}

/-! ### Programs with an allowance -/

/-- A result that an action may have in a world with the property `W`. -/
def May (W : World F → Prop) {β : Type} (c : Act F β) (b : β) : Prop := ∃ w p w' p', W w ∧ c.run w p = .ok ((b, w'), p')

/-- The program makes do with `n` looks into the table of `a`, whatever other goroutines do, as long as `W` holds; `Q` holds of its result and
what is left of the allowance. -/
def Pays (W : World F → Prop) (a : Addr) {α : Type} : Prog F α → Nat → (α → Nat → Prop) → Prop
  | .ret x, n, Q => Q x n
  | .act c k, n, Q => ∃ n', n = (if visited c = some a then 1 else 0) + n' ∧ ∀ b, May W c b → Pays W a (k b) n' Q

variable {α β : Type} {W : World F → Prop} {a : Addr}

theorem pays_mono {Q R : α → Nat → Prop} (hi : ∀ x n, Q x n → R x n) : ∀ (p : Prog F α) (n : Nat), Pays W a p n Q → Pays W a p n R
  | .ret x, n, h => hi x n h
  | .act _ k, _, ⟨n', h1, h2⟩ => ⟨n', h1, fun b hb => pays_mono hi (k b) n' (h2 b hb)⟩

theorem pays_bind {Q : α → Nat → Prop} {R : β → Nat → Prop} {f : α → Prog F β} (hf : ∀ x n, Q x n → Pays W a (f x) n R) :
    ∀ (p : Prog F α) (n : Nat), Pays W a p n Q → Pays W a (p >>= f) n R
  | .ret x, n, h => hf x n h
  | .act _ k, _, ⟨n', h1, h2⟩ => ⟨n', h1, fun b hb => pays_bind hf (k b) n' (h2 b hb)⟩

theorem pays_pure {x : α} {n : Nat} {Q : α → Nat → Prop} (h : Q x n) : Pays W a (pure x : Prog F α) n Q := h

theorem pays_loc {m : Go β} {R : β → Prop} (h : Ends m R) (n : Nat) : Pays W a (Prog.loc m : Prog F β) n (fun x n' => n' = n ∧ R x) := by
  refine ⟨n, by simp [visited], ?_⟩
  rintro b ⟨w, p, w', p', _, e⟩
  refine ⟨rfl, ?_⟩
  have e : (m >>= fun r => pure (r, w)) p = .ok ((b, w'), p') := e
  cases hm : m p with
  | error x => simp [Bind.bind, StateT.bind, Except.bind, hm] at e
  | ok r =>
    obtain ⟨x, q⟩ := r
    simp [Bind.bind, StateT.bind, Except.bind, hm, pure, StateT.pure, Except.pure] at e
    exact h p b q (by rw [hm, e.1.1])

theorem pays_access (b : Addr) (ns : NS) (f : Manager F → Go (β × Manager F)) (n : Nat) :
    Pays W a (Server.access b ns f) (([b] : List Addr).count a + n) (fun _ n' => n ≤ n') := by
  refine ⟨n, by simp [visited, List.count_singleton], fun o _ => ?_⟩
  cases o with
  | none => exact Nat.le_refl n
  | some i => exact ⟨n, by simp [visited], fun x _ => Nat.le_refl n⟩

theorem pays_call (env : Env) (b : Addr) {body : Prog F (Option β)} {c n : Nat} (h : Pays W a body (c + n) (fun _ n' => n ≤ n')) :
    Pays W a (Client.call env b body) (c + n) (fun _ n' => n ≤ n') := by
  unfold Client.call
  refine pays_bind ?_ _ _ (pays_loc (ends_any _) _)
  rintro s n1 ⟨rfl, _⟩
  cases s with
  | false => exact pays_pure (Nat.le_add_left _ _)
  | true =>
    refine pays_bind (fun r n2 h2 => pays_bind ?_ _ _ (pays_loc (ends_any _) _)) _ _ h
    rintro s n3 ⟨rfl, _⟩
    cases s with
    | false => exact pays_pure h2
    | true => exact pays_pure h2

theorem reorder_of_perm {env : Env} (he : EnvOK env) (l : List β) : Ends (env.shuffled l) (fun r => r.Perm l) := by
  intro p r p' h
  cases h
  exact reorder_perm (he.perm p l.length)

theorem pays_each {f : Addr → Prog F β} (g : β → Addr) (hf : ∀ x n, Pays W a (f x) (([x] : List Addr).count a + n) (fun y n' => n ≤ n' ∧ g y = x)) :
    ∀ (l : List Addr) (n : Nat), Pays W a (Prog.each f l) (l.count a + n) (fun ys n' => n ≤ n' ∧ ys.map g = l)
  | [], n => pays_pure ⟨by simp, rfl⟩
  | x :: l, n => by
    have e : (x :: l).count a + n = ([x] : List Addr).count a + (l.count a + n) := by
      rw [← List.singleton_append, List.count_append]; omega
    rw [e]
    refine pays_bind ?_ _ _ (hf x _)
    rintro y n1 ⟨h1, h2⟩
    obtain ⟨d, rfl⟩ := Nat.exists_eq_add_of_le h1
    rw [Nat.add_assoc]
    refine pays_bind ?_ _ _ (pays_each g hf l (n + d))
    rintro ys n2 ⟨h3, h4⟩
    exact pays_pure ⟨by omega, by simp [h2, h4]⟩

set_option linter.unusedSectionVars false

section
variable [GoFloat F] {env : Env} (he : EnvOK env)
include he

theorem pays_fetchVecs (addrs : List Addr) {fetch : Addr → Prog F (Option (List F))}
    (hf : ∀ x n, Pays W a (fetch x) (([x] : List Addr).count a + n) (fun _ n' => n ≤ n')) (n : Nat) :
    Pays W a (fetchVecs env addrs fetch) (addrs.count a + n) (fun r n' => n ≤ n' ∧ (r.map (fun q => q.1)).Subperm addrs) := by
  unfold fetchVecs
  refine pays_bind ?_ _ _ (pays_loc (reorder_of_perm he addrs) _)
  rintro started n1 ⟨rfl, hs⟩
  rw [← hs.count_eq a]
  refine pays_bind ?_ _ _ (pays_each (fun q : Addr × Option (List F) => q.1) (fun x n => ?_) started n)
  · rintro answers n2 ⟨h1, h2⟩
    refine pays_bind ?_ _ _ (pays_loc (reorder_of_perm he answers) _)
    rintro arr n3 ⟨rfl, ha⟩
    refine pays_pure ⟨h1, ?_⟩
    refine List.Subperm.trans ?_ (((ha.map (fun q => q.1)).trans (h2 ▸ hs)).subperm)
    clear ha
    induction arr with
    | nil => exact (List.Perm.refl _).subperm
    | cons q arr ih =>
      obtain ⟨x, o⟩ := q
      rcases o with _ | _ | ⟨y, ys⟩
      · exact ih.trans (List.sublist_cons_self _ _).subperm
      · exact ih.trans (List.sublist_cons_self _ _).subperm
      · exact (List.subperm_cons x).2 ih
  · exact pays_bind (fun r n' h => pays_pure ⟨h, rfl⟩) _ _ (hf x n)

theorem pays_bestFit (addrs : List Addr) (v : List F) [LawfulCmp F] {fetch : Addr → Prog F (Option (List F))}
    (hf : ∀ x n, Pays W a (fetch x) (([x] : List Addr).count a + n) (fun _ n' => n ≤ n')) (n : Nat) :
    Pays W a (Nodes.bestFitNodes env knnCos addrs v fetch) (addrs.count a + n) (fun as n' => n ≤ n' ∧ as.count a ≤ addrs.count a) := by
  unfold Nodes.bestFitNodes
  refine pays_bind ?_ _ _ (pays_fetchVecs he addrs hf n)
  rintro rsp n1 ⟨h1, h2⟩
  refine pays_mono ?_ _ _ (pays_loc (R := fun as => as.Subperm (rsp.map (fun q => q.1))) ?_ n1)
  · rintro as n2 ⟨rfl, h⟩
    exact ⟨h1, (h.trans h2).count_le a⟩
  · intro p r p' h
    obtain ⟨res, k1, k2⟩ := knnCos_searchesBest v (rsp.map (fun q => q.2)) rsp.length
    obtain ⟨chosen, c1, c2, _⟩ := kbest_all k2
    have hw : Go.wp (do let is ← Go.lift (knnCos v (rsp.map (fun q => q.2)) rsp.length); pick (rsp.map (fun q => q.1)) is)
        (fun r _ => r = chosen.map (fun q => q.1)) p := by
      simp only [Go.wp_bind, Go.wp_lift]
      refine ⟨res, k1, Go.wp_mono (wp_pick (out := chosen.map (fun q => q.1)) ?_ p) (fun _ _ h => h.1)⟩
      rw [List.forall₂_map_right_iff]
      refine c1.imp (fun i q hq => ?_)
      rw [List.getElem?_map, hq]; rfl
    obtain ⟨r', q, g1, rfl⟩ := Go.wp_iff.1 hw
    rw [h] at g1
    cases g1
    exact (c2.map _).subperm.trans (List.filter_sublist.map _).subperm

theorem pays_addDataPoint (fac : Factory F) (b : Addr) (ns : NS) (dp : DataPoint F) (n : Nat) :
    Pays W a (Client.addDataPoint env fac b ns dp) (([b] : List Addr).count a + n) (fun _ n' => n ≤ n') := by
  unfold Client.addDataPoint
  refine pays_bind (Q := fun _ n' => n ≤ n') (R := fun _ n' => n ≤ n') (f := fun r => pure (r.getD false)) (fun _ _ h => pays_pure h) _ _
    (pays_call env b ?_)
  refine pays_bind (Q := fun _ n' => n ≤ n') (R := fun _ n' => n ≤ n') (f := fun b => pure (some b)) (fun _ _ h => pays_pure h) _ _ ?_
  unfold Server.addDataPoint
  refine pays_bind (fun o n1 h1 => ?_) _ _ (pays_access b ns _ n)
  cases o with
  | some x => exact pays_pure h1
  | none =>
    refine pays_bind ?_ _ _ (pays_loc (ends_any _) _)
    rintro m n2 ⟨rfl, _⟩
    exact ⟨n2, by simp [visited], fun _ _ => h1⟩

theorem pays_putDataPoint (fac : Factory F) (ns : NS) (dp : DataPoint F) : ∀ (as : List Addr) (n : Nat),
    Pays W a (Dps.putDataPoint env fac ns dp as) (as.count a + n) (fun _ n' => n ≤ n')
  | [], n => pays_pure (Nat.le_add_left _ _)
  | x :: as, n => by
    unfold Dps.putDataPoint
    have e : (x :: as).count a + n = ([x] : List Addr).count a + (as.count a + n) := by
      rw [← List.singleton_append, List.count_append]; omega
    rw [e]
    refine pays_bind (fun ok n1 h1 => ?_) _ _ (pays_addDataPoint he fac x ns dp _)
    obtain ⟨d, rfl⟩ := Nat.exists_eq_add_of_le h1
    cases ok with
    | true => exact pays_pure (by omega)
    | false =>
      rw [Nat.add_assoc]
      exact pays_mono (fun _ _ h => by omega) _ _ (pays_putDataPoint fac ns dp as (n + d))

/-- With an allowance that is larger than needed. -/
theorem pays_putDataPoint' (fac : Factory F) (ns : NS) (dp : DataPoint F) {as : List Addr} {k n N : Nat} (h1 : as.count a ≤ k) (h2 : k + n ≤ N) :
    Pays W a (Dps.putDataPoint env fac ns dp as) N (fun _ n' => n ≤ n') := by
  obtain ⟨d, hd⟩ := Nat.exists_eq_add_of_le (show as.count a + n ≤ N by omega)
  rw [show N = as.count a + (n + d) by omega]
  exact pays_mono (fun _ _ h => by omega) _ _ (pays_putDataPoint he fac ns dp as (n + d))

variable [LawfulCmp F]

theorem pays_vec (ns : NS) (x : Addr) (n : Nat) : Pays W a (Client.vec env x ns : Prog F _) (([x] : List Addr).count a + n) (fun _ n' => n ≤ n') :=
  pays_call env x (pays_access x ns _ n)

theorem pays_nearestCentroidVec (ns : NS) (v : List F) (x : Addr) (n : Nat) :
    Pays W a (Client.nearestCentroidVec env x ns v) (([x] : List Addr).count a + n) (fun _ n' => n ≤ n') :=
  pays_call env x (pays_access x ns _ n)

theorem pays_put (fac : Factory F) (addrs : List Addr) (body : Option (Api.PutOpts F)) :
    Pays W a (Api.putDataPoint env fac addrs body) (3 * addrs.count a) (fun _ _ => True) := by
  unfold Api.putDataPoint
  cases body with
  | none => exact pays_pure trivial
  | some o =>
    have e : 3 * addrs.count a = addrs.count a + (2 * addrs.count a) := by omega
    rw [e]
    refine pays_bind (Q := fun _ n => addrs.count a ≤ n) (fun ok n h => ?_) _ _ ?_
    · refine pays_bind (Q := fun _ _ => True) (fun ok _ _ => pays_pure trivial) _ _ ?_
      cases ok with
      | true => exact pays_pure trivial
      | false =>
        show Pays W a (Dps.putDataPointRand env fac addrs o.ns o.dp.toDataPoint) n _
        unfold Dps.putDataPointRand
        refine pays_bind ?_ _ _ (pays_loc (R := fun as : List Addr => as.Perm addrs) (fun p r p' hr => ?_) n)
        · rintro as n1 ⟨rfl, hp⟩
          exact pays_mono (fun _ _ _ => trivial) _ _ (pays_putDataPoint' he fac o.ns o.dp.toDataPoint (k := addrs.count a) (n := 0)
            (by rw [hp.count_eq]) (by omega))
        · obtain ⟨r', q, h1, h2⟩ := C47_shuffle he addrs p
          rw [hr] at h1
          cases h1
          exact h2
    · cases o.accurate with
      | true =>
        show Pays W a (Dps.putDataPointAccurate env fac knnCos addrs o.ns o.dp.toDataPoint) _ _
        refine pays_bind (fun as n h => ?_) _ _ (pays_bestFit he addrs _ (pays_nearestCentroidVec he o.ns _) _)
        exact pays_putDataPoint' he fac _ _ h.2 (by omega)
      | false =>
        show Pays W a (Dps.putDataPointFast env fac knnCos addrs o.ns o.dp.toDataPoint) _ _
        refine pays_bind (fun as n h => ?_) _ _ (pays_bestFit he addrs _ (pays_vec he o.ns) _)
        exact pays_putDataPoint' he fac _ _ h.2 (by omega)

theorem pays_getFrom (ns : NS) (v : List F) (k : Int) (drain : Bool) : ∀ (as : List Addr) (res : List (DataPoint F)) (N : Nat), as.count a ≤ N →
    Pays W a (Dps.getFrom env ns v k drain as res) N (fun _ _ => True)
  | [], res, n, _ => pays_pure trivial
  | x :: as, res, N, hN => by
    unfold Dps.getFrom
    have e : (x :: as).count a = ([x] : List Addr).count a + as.count a := by rw [← List.singleton_append, List.count_append]
    obtain ⟨d, rfl⟩ := Nat.exists_eq_add_of_le hN
    rw [e, Nat.add_assoc]
    refine pays_bind (Q := fun _ n => as.count a ≤ n) (fun l n h => ?_) _ _ ?_
    · split
      · exact pays_pure trivial
      · exact pays_getFrom ns v k drain as _ n h
    · unfold Client.knnLookup
      refine pays_bind ?_ _ _ (pays_loc (ends_any _) _)
      rintro _ n1 ⟨rfl, _⟩
      refine pays_bind (fun r n2 h2 => pays_pure ?_) _ _ (pays_call env x (pays_access x ns _ _))
      omega

theorem pays_query (addrs : List Addr) (body : Option (Api.QueryOpts F)) :
    Pays W a (Api.queryDataPoint env addrs body) (2 * addrs.count a) (fun _ _ => True) := by
  unfold Api.queryDataPoint
  cases body with
  | none => exact pays_pure trivial
  | some o =>
    rw [show 2 * addrs.count a = addrs.count a + addrs.count a by omega]
    refine pays_bind (Q := fun _ _ => True) (fun _ _ _ => pays_pure trivial) _ _ ?_
    have get : ∀ (as : List Addr) (n : Nat), (addrs.count a ≤ n ∧ as.count a ≤ addrs.count a) →
        Pays W a (Dps.getDataPoints env as o.ns o.vec o.n o.drain) n (fun _ _ => True) := by
      intro as n h
      unfold Dps.getDataPoints
      refine pays_bind ?_ _ _ (pays_loc (ends_any _) _)
      rintro _ n1 ⟨rfl, _⟩
      exact pays_getFrom he _ _ _ _ _ _ _ (by omega)
    cases o.accurate with
    | true =>
      show Pays W a (Dps.getDataPointsAccurate env knnCos addrs o.ns o.vec o.n o.drain) _ _
      exact pays_bind get _ _ (pays_bestFit he addrs _ (pays_nearestCentroidVec he o.ns _) _)
    | false =>
      show Pays W a (Dps.getDataPointsFast env knnCos addrs o.ns o.vec o.n o.drain) _ _
      exact pays_bind get _ _ (pays_bestFit he addrs _ (pays_vec he o.ns) _)

end

/-! ### Concurrent runs -/

theorem visits_le {i : Nat} : ∀ (sched : List Nat) (ts : List (Prog F α)) (w : World F) (p n : Nat) (t : Prog F α), ts[i]? = some t →
    Pays (fun _ => True) a t n (fun _ _ => True) → (visits sched ts w p).count (i, a) ≤ n
  | [], ts, w, p, n, t, _, _ => by simp [visits]
  | j :: sched, ts, w, p, n, t, ht, hp => by
    unfold visits
    split
    · rename_i β c k hj
      by_cases hij : j = i
      · subst hij
        rw [ht] at hj
        cases hj
        obtain ⟨n', rfl, h⟩ := hp
        rw [List.count_append]
        refine Nat.add_le_add ?_ ?_
        · cases hv : visited c with
          | none => simp
          | some b =>
            simp only [Option.toList_some, List.map_cons, List.map_nil, List.count_singleton, Option.some.injEq]
            by_cases hb : b = a
            · simp [hb]
            · simp [hb]
        · cases hr : c.run w p with
          | error e => simp
          | ok r =>
            obtain ⟨⟨b, w'⟩, p'⟩ := r
            refine visits_le sched _ w' p' n' (k b) ?_ (h b ⟨w, p, w', p', trivial, hr⟩)
            rw [List.getElem?_set_self (List.getElem?_eq_some_iff.1 ht).1]
      · rw [List.count_append]
        have h0 : ((visited c).toList.map (fun b => (j, b))).count (i, a) = 0 := by
          cases visited c with
          | none => simp
          | some b => simp [hij]
        rw [h0, Nat.zero_add]
        cases hr : c.run w p with
        | error e => simp
        | ok r => exact visits_le sched _ _ _ n t (by rw [List.getElem?_set_ne hij]; exact ht) hp
    · exact visits_le sched ts w p n t ht hp

/-- C141, puts: in any concurrent run of any jobs, an HTTP put turns at most three times to a node, for every time the node is among the addresses
of the API: once for its vector, once to store the datapoint where it fits, once to store it anywhere. -/
theorem C141_put [GoFloat F] [LawfulCmp F] {env : Env} (he : EnvOK env) (fac : Factory F) (jobs : List (Job F)) {i : Nat} {addrs : List Addr}
    {body : Option (Api.PutOpts F)} (hi : jobs[i]? = some (.put addrs body)) (sched : List Nat) (w : World F) (p : Nat) (a : Addr) :
    (visits sched (jobs.map (fun j => j.prog env fac)) w p).count (i, a) ≤ 3 * addrs.count a := by
  refine visits_le sched _ w p _ ((Job.put addrs body).prog env fac) (by rw [List.getElem?_map, hi]; rfl) ?_
  exact pays_bind (fun _ _ _ => pays_pure trivial) _ _ (pays_put he fac addrs body)

/-- C141, queries: at most two times, once for its vector and once for datapoints. -/
theorem C141_query [GoFloat F] [LawfulCmp F] {env : Env} (he : EnvOK env) (fac : Factory F) (jobs : List (Job F)) {i : Nat} {addrs : List Addr}
    {body : Option (Api.QueryOpts F)} (hi : jobs[i]? = some (.query addrs body)) (sched : List Nat) (w : World F) (p : Nat) (a : Addr) :
    (visits sched (jobs.map (fun j => j.prog env fac)) w p).count (i, a) ≤ 2 * addrs.count a := by
  refine visits_le sched _ w p _ ((Job.query addrs body).prog env fac) (by rw [List.getElem?_map, hi]; rfl) ?_
  exact pays_bind (fun _ _ _ => pays_pure trivial) _ _ (pays_query he addrs body)

open ServerExample

/-- C141: a put and a query at the same time, step by step in turn. -/
example : ∀ a, (visits ((List.replicate 20 [0, 1]).flatten) ([Job.put [1, 2] (some ⟨7, true, ⟨[.ofInt 1, .ofInt 2], [], 0, false⟩⟩),
      .query [1, 2] (some ⟨7, false, [.ofInt 2, .ofInt 1], 3, false⟩)].map (fun j => j.prog env (⟨10, 4, knnCos, kfnCos⟩ : Factory F64))) two 0).count (0, a) ≤
    3 * ([1, 2] : List Addr).count a :=
  fun a => C141_put env_ok _ _ rfl _ _ _ a

/-- C141: what happens in this run. The put asks both nodes for vectors and stores at node 2, the query asks both nodes for vectors, then for
datapoints. -/
example : visits ((List.replicate 20 [0, 1]).flatten) ([Job.put [1, 2] (some ⟨7, true, ⟨[.ofInt 1, .ofInt 2], [], 0, false⟩⟩),
      .query [1, 2] (some ⟨7, false, [.ofInt 2, .ofInt 1], 3, false⟩)].map (fun j => j.prog env (⟨10, 4, knnCos, kfnCos⟩ : Factory F64))) two 0 =
    [(0, 1), (1, 1), (0, 2), (1, 2), (0, 2), (1, 1), (1, 2)] := by decide +kernel

/-- C141: three times is possible, when the node stores the datapoint and its reply gets lost. -/
example : visits (List.replicate 20 0) ([Job.put [1] (some ⟨7, true, ⟨[.ofInt 1, .ofInt 2], [], 0, false⟩⟩)].map
      (fun j => j.prog { env with back := fun p _ => decide (p ≤ 3) } (⟨10, 4, knnCos, kfnCos⟩ : Factory F64))) two 0 = [(0, 1), (0, 1), (0, 1)] := by
  decide +kernel

end Trypo
