import Verif.Props.More
import Verif.Props.Landing

/-!
# C146: the order of puts
-/

set_option linter.unusedSectionVars false

namespace Trypo
open GoFloat Spec

section
variable {F : Type} [GoFloat F] [LawfulCmp F]

namespace Spec

/-- Wherever the namespace exists it has at most one centroid and stays below the threshold with `k` more datapoints. -/
def Roomy (ns : NS) (k : Nat) (w : World F) : Prop :=
  ∀ a m, w.get a ns = some m → m.centroids.length ≤ 1 ∧ ((stored m).length + k : Int) < m.threshold

end Spec

/-- A manager with one centroid and room for one more keeps its one centroid. -/
theorem Manager.wp_addDataPoint_room {tk : Nat → Int} (hm : MonoClock tk) {cm : Manager F} (hw : cm.WF) (d : DataPoint F) {k : Nat}
    (h1 : cm.centroids.length ≤ 1) (h2 : ((stored cm).length + (k + 1 : Nat) : Int) < cm.threshold) (p : Nat) :
    Go.wp (cm.addDataPoint tk d) (fun r _ => r.2.centroids.length ≤ 1 ∧ ((stored r.2).length + k : Int) < r.2.threshold) p := by
  refine Go.wp_mono (wp_addDataPoint hm hw d p) (fun r p' hr => ?_)
  obtain ⟨_, e1, e2, _⟩ := hr
  cases hb : r.1 with
  | false => rw [e1 hb]; exact ⟨h1, by omega⟩
  | true =>
    have hs := e2 hb
    generalize r.2 = cm' at hs
    have small : ∀ (j : Nat) (c : Centroid F), cm.centroids[j]? = some c → cm.centroids = [c] ∧ j = 0 := by
      intro j c hc
      match hcs : cm.centroids with
      | [] => simp [hcs] at hc
      | [x] =>
        rw [hcs] at hc
        have : j < [x].length := (List.getElem?_eq_some_iff.1 hc).1
        simp at this
        subst this
        simp at hc
        exact ⟨by rw [hc], rfl⟩
      | _ :: _ :: _ => simp [hcs] at h1
    cases hs with
    | @first _ c' h0 hd =>
      refine ⟨by simp, ?_⟩
      have : c'.dps.length ≤ 1 := by rcases hd with hd | ⟨hd, _⟩ <;> simp [hd]
      simp only [stored, List.flatMap_cons, List.flatMap_nil, List.append_nil]
      push_cast at h2
      omega
    | @plain _ j c hc =>
      obtain ⟨e, rfl⟩ := small j c hc
      refine ⟨by rw [upd_centroids]; simpa using h1, ?_⟩
      rw [show (cm.upd 0 c.vec (c.addRaw d)).threshold = cm.threshold from rfl]
      simp only [stored, upd_centroids, e, List.set_cons_zero, List.flatMap_cons, List.flatMap_nil, List.append_nil, Centroid.addRaw,
        List.length_append, List.length_singleton] at h2 ⊢
      push_cast at h2 ⊢
      omega
    | @split _ _ j c _ _ _ hc _ ht =>
      exfalso
      obtain ⟨e, rfl⟩ := small j c hc
      simp only [stored, e, List.flatMap_cons, List.flatMap_nil, List.append_nil] at h2
      push_cast at h2
      omega

theorem wp_server_add_room {env : Env} (hm : MonoClock env.tk) {fac : Factory F} (hf : FactoryOK fac) {D : NS → Nat} {w : World F} (hw : WorldOK D w)
    (a : Addr) {ns : NS} {k : Nat} (hk : (k + 1 : Nat) < fac.threshold) (h : Roomy ns (k + 1) w) (d : DataPoint F) (p : Nat) :
    Go.wp ((Server.addDataPoint env fac a ns d).run w) (fun r _ => Roomy ns k r.2) p := by
  unfold Server.addDataPoint
  have less : ∀ {b m}, w.get b ns = some m → m.centroids.length ≤ 1 ∧ ((stored m).length + k : Int) < m.threshold := fun hb =>
    ⟨(h _ _ hb).1, by have := (h _ _ hb).2; push_cast at this; omega⟩
  cases hg : w.get a ns with
  | none =>
    have hl := (get_eq_none_iff hw).1 hg
    rw [run_bind, run_access_none hl, pure_bind]
    show Go.wp ((Prog.loc _ >>= _).run w) _ _
    rw [run_bind, run_loc]
    simp only [bind_assoc, Go.wp_bind, Go.wp_pure]
    unfold Factory.make Manager.new
    simp only [Go.wp_bind, Go.wp_checkMake, Go.wp_pure]
    refine ⟨hf.cap, ?_⟩
    refine Go.wp_mono (Manager.wp_addDataPoint_room (k := k) hm ⟨hf.cap, ?_, by simp, by simp⟩ d (by simp) (by simpa [stored] using hk) p) (fun r p' hr => ?_)
    · rw [show (_ : Manager F).knn = fac.knn from rfl, show (_ : Manager F).kfn = fac.kfn from rfl, hf.knn, hf.kfn]
      exact ⟨searchOK_prefabs.1, searchOK_prefabs.2.1⟩
    rw [run_bind, run_addSlot, pure_bind, run_pure, Go.wp_pure]
    intro b m hb
    by_cases hba : b = a
    · subst hba
      rw [get_addSlot] at hb
      cases hb
      exact hr
    · rw [get_addSlot_of_lookup hw (lookup_addSlot_node w hba ns ns _)] at hb
      exact less hb
  | some m =>
    obtain ⟨i, hl, hi⟩ := lookup_of_get hw hg
    have hok := hw.mok hi
    rw [run_bind, run_access_some hl hi, bind_assoc, Go.wp_bind]
    refine Go.wp_mono (Manager.wp_addDataPoint_room (k := k) hm hok.wf d (h _ _ hg).1 (h _ _ hg).2 p) (fun r p' hr => ?_)
    rw [pure_bind, run_pure, Go.wp_pure]
    intro b m' hb
    by_cases hba : b = a
    · subst hba
      rw [get_put_self hl hi] at hb
      cases hb
      exact hr
    · rw [get_put_other hw hl hi (.inl hba)] at hb
      exact less hb

theorem Spec.Roomy.less {ns : NS} {k : Nat} {w : World F} (h : Roomy ns (k + 1) w) : Roomy ns k w := fun a m hb =>
  ⟨(h a m hb).1, by have := (h a m hb).2; push_cast at this; omega⟩

theorem wp_client_add_room {env : Env} (hm : MonoClock env.tk) (hlost : NoLostReplies env) {fac : Factory F} (hf : FactoryOK fac) {D : NS → Nat}
    {w : World F} (hw : WorldOK D w) (a : Addr) {ns : NS} {k : Nat} (hk : (k + 1 : Nat) < fac.threshold) (h : Roomy ns (k + 1) w) (d : DataPoint F) (p : Nat) :
    Go.wp ((Client.addDataPoint env fac a ns d).run w) (fun r _ => (r.1 = true → Roomy ns k r.2) ∧ (r.1 = false → r.2 = w)) p := by
  unfold Client.addDataPoint Client.call
  simp only [run_bind, Go.wp_bind, run_loc]
  refine wp_sent ?_
  rw [Go.wp_pure]
  cases hup : env.up p a with
  | false =>
    simp only [Bool.false_eq_true, if_false, run_pure, Go.wp_pure, Option.getD_none]
    exact ⟨by simp, fun _ => trivial⟩
  | true =>
    simp only [if_true, run_bind, Go.wp_bind]
    refine Go.wp_mono (Go.wp_and (wp_server_add_room hm hf hw a hk h d (p + 1)) (wp_server_add hm hf hw a ns d (p + 1))) (fun r p1 hr => ?_)
    rw [run_pure, Go.wp_pure, run_loc, Go.wp_bind]
    refine wp_arrived ?_
    rw [Go.wp_pure, hlost p1 a]
    simp only [if_true, run_pure, Go.wp_pure, Option.getD_some, hr.2.2.1]
    exact ⟨fun _ => hr.1, by simp⟩

theorem wp_put_room {env : Env} (hm : MonoClock env.tk) (hlost : NoLostReplies env) {fac : Factory F} (hf : FactoryOK fac) {D : NS → Nat}
    {ns : NS} {k : Nat} (hk : (k + 1 : Nat) < fac.threshold) (d : DataPoint F) : ∀ (as : List Addr) {w : World F}, WorldOK D w → Roomy ns (k + 1) w → ∀ (p : Nat),
    Go.wp ((Dps.putDataPoint env fac ns d as).run w) (fun r _ => (r.1 = true → Roomy ns k r.2) ∧ (r.1 = false → r.2 = w)) p
  | [], w, _, _, p => by
    unfold Dps.putDataPoint
    rw [run_pure, Go.wp_pure]
    exact ⟨by simp, fun _ => rfl⟩
  | a :: as, w, hw, h, p => by
    unfold Dps.putDataPoint
    rw [run_bind, Go.wp_bind]
    refine Go.wp_mono (wp_client_add_room hm hlost hf hw a hk h d p) (fun r p1 hr => ?_)
    cases hb : r.1 with
    | true => simp only [if_true, run_pure, Go.wp_pure]; exact ⟨fun _ => hr.1 hb, by simp⟩
    | false =>
      simp only [Bool.false_eq_true, if_false]
      rw [hr.2 hb]
      exact wp_put_room hm hlost hf hk d as hw h p1

/-- The HTTP put leaves room for one datapoint less. -/
theorem wp_httpPut_room {env : Env} (he : EnvOK env) (hlost : NoLostReplies env) {fac : Factory F} (hf : FactoryOK fac) {D : NS → Nat} {w : World F}
    (hw : WorldOK D w) (addrs : List Addr) (o : Api.PutOpts F) {k : Nat} (hk : (k + 1 : Nat) < fac.threshold) (h : Roomy o.ns (k + 1) w) (p : Nat) :
    Go.wp ((Api.putDataPoint env fac addrs (some o)).run w) (fun r _ => Roomy o.ns k r.2) p := by
  unfold Api.putDataPoint
  simp only [run_bind, Go.wp_bind]
  have first : Go.wp ((if o.accurate then Dps.putDataPointAccurate env fac knnCos addrs o.ns o.dp.toDataPoint
      else Dps.putDataPointFast env fac knnCos addrs o.ns o.dp.toDataPoint : Prog F Bool).run w)
      (fun r _ => (r.1 = true → Roomy o.ns k r.2) ∧ (r.1 = false → r.2 = w)) p := by
    cases o.accurate with
    | true =>
      simp only [if_true]
      unfold Dps.putDataPointAccurate
      rw [run_bind, Go.wp_bind]
      refine Go.wp_mono (wp_bestAccurate he hw knnCos_searchesBest addrs o.ns _ p) (fun r p1 hr => ?_)
      rw [hr.2.1]
      exact wp_put_room he.clock hlost hf hk _ r.1 hw h p1
    | false =>
      simp only [Bool.false_eq_true, if_false]
      unfold Dps.putDataPointFast
      rw [run_bind, Go.wp_bind]
      refine Go.wp_mono (wp_bestFast he hw knnCos_searchesBest addrs o.ns _ p) (fun r p1 hr => ?_)
      rw [hr.2.1]
      exact wp_put_room he.clock hlost hf hk _ r.1 hw h p1
  refine Go.wp_mono first (fun r p1 hr => ?_)
  have second : Go.wp ((if r.1 then pure true else Dps.putDataPointRand env fac addrs o.ns o.dp.toDataPoint : Prog F Bool).run r.2)
      (fun r _ => Roomy o.ns k r.2) p1 := by
    cases hb : r.1 with
    | true => simp only [if_true, run_pure, Go.wp_pure]; exact hr.1 hb
    | false =>
      simp only [Bool.false_eq_true, if_false]
      rw [hr.2 hb]
      unfold Dps.putDataPointRand
      rw [run_bind, Go.wp_bind, run_loc, Go.wp_bind]
      unfold Dps.shuffleAddrs
      refine Go.wp_mono (wp_shuffleFrom he addrs.length 0 addrs p1 rfl (by omega)) (fun as p2 _ => ?_)
      rw [Go.wp_pure]
      refine Go.wp_mono (wp_put_room he.clock hlost hf hk _ as hw h p2) (fun r _ hr => ?_)
      cases hb : r.1 with
      | true => exact hr.1 hb
      | false => rw [hr.2 hb]; exact h.less
  refine Go.wp_mono second (fun q p2 hq => ?_)
  rw [run_pure, Go.wp_pure]
  exact hq

/-- C146 in part, in any arithmetic, as long as the one node has one centroid. Two states that hold the same datapoints, in whatever order they came:
the answers to a query are equally long, and place by place neither is more similar than the other. -/
theorem C146_exact_partial {env : Env} (he : EnvOK env) {D D' : NS → Nat} {w w' : World F} (hw : WorldOK D w) (hw' : WorldOK D' w') (o : Api.QueryOpts F)
    (hv : o.vec ≠ []) {n : Nat} (hn : o.n = n) {a : Addr} (hr : Reachable env a)
    {m m' : Manager F} (hg : w.get a o.ns = some m) (hg' : w'.get a o.ns = some m') {c c' : Centroid F} (hc : m.centroids = [c]) (hc' : m'.centroids = [c'])
    (hsame : c.dps.Perm c'.dps) (hs : sees o.vec c.vec = true) (hs' : sees o.vec c'.vec = true)
    (hf : o.accurate = false → sees o.vec m.vec = true ∧ sees o.vec m'.vec = true)
    (hl : ∀ d ∈ c'.dps, ∀ q, ¬ Dead (env.tk q) d) (p p' : Nat) :
    ∃ (out out' : List (DataPoint F)) (u u' : World F) (q q' : Nat),
      (Api.queryDataPoint env [a] (some o)).run w p = .ok (((200, out.map (fun d => ⟨d.vec, d.payload, d.expires, d.expireEnabled⟩)), u), q) ∧
      (Api.queryDataPoint env [a] (some o)).run w' p' = .ok (((200, out'.map (fun d => ⟨d.vec, d.payload, d.expires, d.expireEnabled⟩)), u'), q') ∧
      out.length = out'.length ∧ ∀ (i : Nat) (d d' : DataPoint F), out[i]? = some d → out'[i]? = some d' →
        ∀ s s', cosineSimilarity o.vec d.vec = some s → cosineSimilarity o.vec d'.vec = some s' → lt s' s = false ∧ lt s s' = false := by
  obtain ⟨out, u, q, h0, h1⟩ := C106_exact he hw o hv hn hr hg hc hs (fun h => (hf h).1) (fun d hd => hl d (hsame.subset hd)) p
  obtain ⟨out', u', q', h0', h1'⟩ := C106_exact he hw' o hv hn hr hg' hc' hs' (fun h => (hf h).2) hl p'
  have st : storedAt w [a] o.ns = c.dps := by rw [storedAt_one hg]; simp [stored, hc]
  have st' : storedAt w' [a] o.ns = c'.dps := by rw [storedAt_one hg']; simp [stored, hc']
  rw [st] at h1
  rw [st'] at h1'
  obtain ⟨k1, k2⟩ := takesBest_more hsame.subperm h1 h1'
  obtain ⟨k3, k4⟩ := takesBest_more hsame.symm.subperm h1' h1
  exact ⟨out, out', u, u', q, q', h0, h0', by omega, fun i d d' hd hd' s s' e1 e2 =>
    ⟨by simpa [Better] using k2 i d d' hd hd' s s' e1 e2, by simpa [Better] using k4 i d' d hd' hd s' s e2 e1⟩⟩

end

section
variable {env : Env} {D : NS → Nat}

/-- What puts leave behind, in exact arithmetic. -/
theorem putAll_room (he : EnvOK env) (hlost : NoLostReplies env) {fac : Factory ℝ} (hf : FactoryOK fac) {addrs : List Addr} (hne : addrs ≠ [])
    (hnd : addrs.Nodup) (hr : ∀ a ∈ addrs, Reachable env a) (ns : NS) : ∀ (os : List (Bool × Api.DP ℝ)) (w : World ℝ) (p : Nat), WorldOK D w →
      (∀ d ∈ storedAt w addrs ns, ∀ q, ¬ Dead (env.tk q) d) → (∀ o ∈ os, o.2.vec.length = D ns ∧ o.2.expireEnabled = false) →
      os.length < fac.threshold → Roomy ns os.length w →
      ∃ w' p', (putAll env fac addrs ns os).run w p = .ok ((List.replicate os.length 200, w'), p') ∧ WorldOK D w' ∧
        (storedAt w' addrs ns).Perm (storedAt w addrs ns ++ os.map (fun o => asDataPoint o.2)) ∧ Roomy ns 0 w'
  | [], w, p, hw, _, _, _, hroom => ⟨w, p, by unfold putAll; rw [run_pure]; rfl, hw, by simp, hroom⟩
  | o :: os, w, p, hw, hl, ho, hk, hroom => by
    obtain ⟨w1, p1, e1, e2, e3, _⟩ := put_adds he hlost hf hw hne hnd hr ⟨ns, o.1, o.2⟩ (ho o (by simp)).1 (ho o (by simp)).2 hl p
    have e4 : Roomy ns os.length w1 := by
      obtain ⟨r, q, k1, k2⟩ := Go.wp_iff.1 (wp_httpPut_room he hlost hf hw addrs ⟨ns, o.1, o.2⟩ (k := os.length) hk hroom p)
      rw [e1] at k1
      cases k1
      exact k2
    have hl1 : ∀ d ∈ storedAt w1 addrs ns, ∀ q, ¬ Dead (env.tk q) d := by
      intro d hd q hdead
      rcases List.mem_cons.1 (e3.subset hd) with rfl | hd
      · have := hdead.1
        simp [asDataPoint, (ho o (by simp)).2] at this
      · exact hl d hd q hdead
    obtain ⟨w2, p2, i1, i2, i3, i4⟩ := putAll_room he hlost hf hne hnd hr ns os w1 p1 e2 hl1 (fun o h => ho o (by simp [h]))
      (by simp only [List.length_cons] at hk; push_cast at hk; omega) e4
    refine ⟨w2, p2, ?_, i2, ?_, i4⟩
    · unfold putAll
      refine (run_bind_ok e1).trans ((run_bind_ok i1).trans ?_)
      rw [run_pure]; rfl
    · simp only [List.map_cons]
      permc [i3, e3]

/-- C146 in part, in exact arithmetic, with any number of nodes and centroids: after the same puts in another order, a query that asks for enough is
answered with the same datapoints. -/
theorem C146_enough_partial (he : EnvOK env) (hlost : NoLostReplies env) {fac : Factory ℝ} (hf : FactoryOK fac) {w : World ℝ} (hw : WorldOK D w)
    {addrs : List Addr} (hne : addrs ≠ []) (hnd : addrs.Nodup) (hr : ∀ a ∈ addrs, Reachable env a) (ns : NS) (hD : D ns ≠ 0)
    (hl : ∀ d ∈ storedAt w addrs ns, ∀ q, ¬ Dead (env.tk q) d) {os os' : List (Bool × Api.DP ℝ)} (hp : (os.map (fun o => o.2)).Perm (os'.map (fun o => o.2)))
    (ho : ∀ o ∈ os, o.2.vec.length = D ns ∧ o.2.expireEnabled = false) (p : Nat) :
    ∃ w1 w1' p1 p1' N, (putAll env fac addrs ns os).run w p = .ok ((List.replicate os.length 200, w1), p1) ∧
      (putAll env fac addrs ns os').run w p = .ok ((List.replicate os'.length 200, w1'), p1') ∧
      ∀ o : Api.QueryOpts ℝ, o.ns = ns → o.vec.length = D ns → N ≤ o.n →
        ∃ (out out' : List (DataPoint ℝ)) (u u' : World ℝ) (q q' : Nat),
          (Api.queryDataPoint env addrs (some o)).run w1 p1 = .ok (((200, out.map (fun d => ⟨d.vec, d.payload, d.expires, d.expireEnabled⟩)), u), q) ∧
          (Api.queryDataPoint env addrs (some o)).run w1' p1' = .ok (((200, out'.map (fun d => ⟨d.vec, d.payload, d.expires, d.expireEnabled⟩)), u'), q') ∧
          out.Perm out' := by
  have ho' : ∀ o ∈ os', o.2.vec.length = D ns ∧ o.2.expireEnabled = false := by
    intro o h
    obtain ⟨x, hx, e⟩ := List.mem_map.1 (hp.symm.subset (List.mem_map.2 ⟨o, h, rfl⟩))
    rw [← e]
    exact ho x hx
  obtain ⟨w1, p1, N, h1, h2⟩ := C103_put_then_query he hlost hf hw hne hnd hr ns hD hl os ho p
  obtain ⟨w1', p1', N', h1', h2'⟩ := C103_put_then_query he hlost hf hw hne hnd hr ns hD hl os' ho' p
  refine ⟨w1, w1', p1, p1', max N N', h1, h1', fun o e1 e2 e3 => ?_⟩
  obtain ⟨out, u, q, k1, k2⟩ := h2 o e1 e2 (le_trans (le_max_left _ _) e3)
  obtain ⟨out', u', q', k1', k2'⟩ := h2' o e1 e2 (le_trans (le_max_right _ _) e3)
  refine ⟨out, out', u, u', q, q', k1, k1', k2.trans (List.Perm.trans ?_ k2'.symm)⟩
  have := (hp.map asDataPoint).append_left (storedAt w addrs ns)
  simpa [List.map_map, Function.comp_def] using this

/-- C146 in part, in exact arithmetic, with one node as long as the namespace has fewer datapoints than the node divides a centroid at: after the same
puts in another order, the answer to any query has the same similarities, place by place. -/
theorem C146_few_partial (he : EnvOK env) (hlost : NoLostReplies env) {fac : Factory ℝ} (hf : FactoryOK fac) {w : World ℝ} (hw : WorldOK D w)
    {a : Addr} (hr : Reachable env a) (ns : NS) (hD : D ns ≠ 0)
    (hl : ∀ d ∈ storedAt w [a] ns, ∀ q, ¬ Dead (env.tk q) d) {os os' : List (Bool × Api.DP ℝ)} (hos : os ≠ [])
    (hp : (os.map (fun o => o.2)).Perm (os'.map (fun o => o.2))) (ho : ∀ o ∈ os, o.2.vec.length = D ns ∧ o.2.expireEnabled = false)
    (hk : os.length < fac.threshold) (hroom : Roomy ns os.length w) (p : Nat) :
    ∃ w1 w1' p1 p1', (putAll env fac [a] ns os).run w p = .ok ((List.replicate os.length 200, w1), p1) ∧
      (putAll env fac [a] ns os').run w p = .ok ((List.replicate os'.length 200, w1'), p1') ∧
      ∀ o : Api.QueryOpts ℝ, o.ns = ns → o.vec.length = D ns → 0 ≤ o.n →
        ∃ (out out' : List (DataPoint ℝ)) (u u' : World ℝ) (q q' : Nat),
          (Api.queryDataPoint env [a] (some o)).run w1 p1 = .ok (((200, out.map (fun d => ⟨d.vec, d.payload, d.expires, d.expireEnabled⟩)), u), q) ∧
          (Api.queryDataPoint env [a] (some o)).run w1' p1' = .ok (((200, out'.map (fun d => ⟨d.vec, d.payload, d.expires, d.expireEnabled⟩)), u'), q') ∧
          out.map (fun d => cosineSimilarity o.vec d.vec) = out'.map (fun d => cosineSimilarity o.vec d.vec) := by
  have ho' : ∀ o ∈ os', o.2.vec.length = D ns ∧ o.2.expireEnabled = false := by
    intro o h
    obtain ⟨x, hx, e⟩ := List.mem_map.1 (hp.symm.subset (List.mem_map.2 ⟨o, h, rfl⟩))
    rw [← e]
    exact ho x hx
  have hlen : os'.length = os.length := by simpa using hp.length_eq.symm
  obtain ⟨w1, p1, h1, h2, h3, h4⟩ := putAll_room he hlost hf (by simp) (by simp) (by simpa using hr) ns os w p hw hl ho hk hroom
  obtain ⟨w1', p1', h1', h2', h3', h4'⟩ := putAll_room he hlost hf (by simp) (by simp) (by simpa using hr) ns os' w p hw hl ho' (by rw [hlen]; exact hk)
    (by rw [hlen]; exact hroom)
  refine ⟨w1, w1', p1, p1', h1, h1', fun o e1 e2 e3 => ?_⟩
  subst e1
  have hperm : (storedAt w1 [a] o.ns).Perm (storedAt w1' [a] o.ns) := by
    refine h3.trans (List.Perm.trans ?_ h3'.symm)
    have := (hp.map asDataPoint).append_left (storedAt w [a] o.ns)
    simpa [List.map_map, Function.comp_def] using this
  have answer : ∀ {v : World ℝ} {b : List (Bool × Api.DP ℝ)} (q : Nat), WorldOK D v → b ≠ [] → (∀ x ∈ b, x.2.expireEnabled = false) →
      (storedAt v [a] o.ns).Perm (storedAt w [a] o.ns ++ b.map (fun x => asDataPoint x.2)) → Roomy o.ns 0 v →
      ∃ (out : List (DataPoint ℝ)) (u : World ℝ) (q' : Nat), (Api.queryDataPoint env [a] (some o)).run v q =
          .ok (((200, out.map (fun d => ⟨d.vec, d.payload, d.expires, d.expireEnabled⟩)), u), q') ∧
        TakesBest (fun d => cosineSimilarity o.vec d.vec) false o.n.toNat (storedAt v [a] o.ns) out := by
    intro v b q hv hb hbe hst hro
    have hsome : storedAt v [a] o.ns ≠ [] := by
      intro h
      rw [h] at hst
      have h0 := hst.length_eq
      have h1 : b.length ≠ 0 := fun h => hb (List.length_eq_zero_iff.1 h)
      simp only [List.length_nil, List.length_append, List.length_map] at h0
      omega
    cases hg : v.get a o.ns with
    | none => exact absurd (by simp [storedAt, hg]) hsome
    | some m =>
      obtain ⟨i, hlk, hi⟩ := lookup_of_get hv hg
      have hmok := hv.mok hi
      have hlive : ∀ d ∈ storedAt v [a] o.ns, ∀ q, ¬ Dead (env.tk q) d := by
        intro d hd q hdead
        rcases List.mem_append.1 (hst.subset hd) with hd | hd
        · exact hl d hd q hdead
        · obtain ⟨e, he', rfl⟩ := List.mem_map.1 hd
          have := hdead.1
          simp [asDataPoint, hbe e he'] at this
      match hcs : m.centroids with
      | [] => exact absurd (by simp [storedAt, hg, stored, hcs]) hsome
      | _ :: _ :: _ => have := (hro a m hg).1; simp [hcs] at this
      | [c] =>
        have hcl : c.vec.length = m.vec.length := (hmok.wf.dim c (by simp [hcs])).1
        refine C106_exact he hv o (by intro h; rw [h] at e2; exact hD e2.symm) (by omega) hr hg hcs (sees_real ?_) (fun _ => sees_real ?_) ?_ q
        · rw [hcl, hmok.len, e2]
        · rw [hmok.len, e2]
        · intro d hd
          exact hlive d (by simpa [storedAt, hg, stored, hcs] using hd)
  obtain ⟨out, u, q, k1, k2⟩ := answer p1 h2 hos (fun x hx => (ho x hx).2) h3 h4
  obtain ⟨out', u', q', k1', k2'⟩ := answer p1' h2' (by intro h; rw [h] at hlen; exact hos (List.length_eq_zero_iff.1 hlen.symm)) (fun x hx => (ho' x hx).2) h3' h4'
  refine ⟨out, out', u, u', q, q', k1, k1', ?_⟩
  obtain ⟨a1, a2⟩ := takesBest_more hperm.subperm k2 k2'
  obtain ⟨b1, b2⟩ := takesBest_more hperm.symm.subperm k2' k2
  refine List.ext_getElem (by simp; omega) (fun i hi hi' => ?_)
  simp only [List.length_map] at hi hi'
  simp only [List.getElem_map]
  obtain ⟨r, _, c1, _⟩ := k2
  obtain ⟨r', _, c1', _⟩ := k2'
  obtain ⟨s, hs, _⟩ := c1.comparable out[i] (List.getElem_mem hi)
  obtain ⟨s', hs', _⟩ := c1'.comparable out'[i] (List.getElem_mem hi')
  have d1 := a2 i _ _ (List.getElem?_eq_getElem hi) (List.getElem?_eq_getElem hi') s s' hs hs'
  have d2 := b2 i _ _ (List.getElem?_eq_getElem hi') (List.getElem?_eq_getElem hi) s' s hs' hs
  rw [hs, hs']
  simp [Better, lt] at d1 d2
  rw [le_antisymm d1 d2]

end

open ServerExample ApproxExample

namespace OrderExample

/-- Two datapoints at node 1. -/
def there : World F64 := nodes2 (man [.ofInt 1, .ofInt 0] [cen [.ofInt 1, .ofInt 0] [dp 1 1, dp 1 0]]) (man [.ofInt 0, .ofInt 1] []) (man [.ofInt 3, .ofInt 4] [])

/-- The same in another order. -/
def back : World F64 := nodes2 (man [.ofInt 1, .ofInt 0] [cen [.ofInt 1, .ofInt 0] [dp 1 0, dp 1 1]]) (man [.ofInt 0, .ofInt 1] []) (man [.ofInt 3, .ofInt 4] [])

theorem there_ok : WorldOK (fun _ => 2) there :=
  nodes2_ok (man_mok rfl (by simp [cen, dp]) (by simp [cen])) (man_mok rfl (by simp) (by simp)) (man_mok rfl (by simp) (by simp))

theorem back_ok : WorldOK (fun _ => 2) back :=
  nodes2_ok (man_mok rfl (by simp [cen, dp]) (by simp [cen])) (man_mok rfl (by simp) (by simp)) (man_mok rfl (by simp) (by simp))

end OrderExample

/-- C146 is violated: four puts to one node that divides a centroid at four, and a query for the datapoint nearest to (1,0). The answer is (1,1), or
(1,0) if the same puts come in another order. -/
theorem C146_refuted : [put 1 0, put 1 1, put 0 10, put 1 1].Perm [put 1 0, put 0 10, put 1 1, put 1 1] ∧
    (∃ r p, (session [put 1 0, put 0 10, put 1 1, put 1 1] ⟨7, true, [.ofInt 1, .ofInt 0], 1, false⟩).run start 0 = .ok (r, p) ∧
      (looked r).1 = (200, [[F64.ofInt 1, .ofInt 1]])) ∧
    ∃ r p, (session [put 1 0, put 1 1, put 0 10, put 1 1] ⟨7, true, [.ofInt 1, .ofInt 0], 1, false⟩).run start 0 = .ok (r, p) ∧
      (looked r).1 = (200, [[F64.ofInt 1, .ofInt 0]]) :=
  ⟨(List.Perm.swap _ _ _).cons _, exists_of_run (f := fun r => (looked r).1) (by decide +kernel),
    exists_of_run (f := fun r => (looked r).1) (by decide +kernel)⟩

/-- C146: a query for (1,2) to `there` and to `back`. -/
example : ∃ (out out' : List (DataPoint F64)) (u u' : World F64) (q q' : Nat),
      (Api.queryDataPoint env [1] (some ⟨7, true, [F64.ofInt 1, .ofInt 2], 2, false⟩)).run OrderExample.there 0 =
        .ok (((200, out.map (fun d => ⟨d.vec, d.payload, d.expires, d.expireEnabled⟩)), u), q) ∧
      (Api.queryDataPoint env [1] (some ⟨7, true, [F64.ofInt 1, .ofInt 2], 2, false⟩)).run OrderExample.back 0 =
        .ok (((200, out'.map (fun d => ⟨d.vec, d.payload, d.expires, d.expireEnabled⟩)), u'), q') ∧
      out.length = out'.length ∧ ∀ (i : Nat) (d d' : DataPoint F64), out[i]? = some d → out'[i]? = some d' →
        ∀ s s', cosineSimilarity [F64.ofInt 1, .ofInt 2] d.vec = some s → cosineSimilarity [F64.ofInt 1, .ofInt 2] d'.vec = some s' →
          lt s' s = false ∧ lt s s' = false :=
  C146_exact_partial env_ok OrderExample.there_ok OrderExample.back_ok ⟨7, true, [F64.ofInt 1, .ofInt 2], 2, false⟩ (by simp) rfl
    ⟨fun _ => rfl, fun _ => rfl⟩ rfl rfl rfl rfl (List.Perm.swap ..) (by decide +kernel) (by decide +kernel) (by simp) (by
      intro d hd q h
      have : ∀ d ∈ [dp 1 0, dp 1 1], d.expireEnabled = false := by decide +kernel
      simp [Dead, this d hd] at h) 0 0

/-- C146: two datapoints put in either order at two nodes. -/
example : ∃ w1 w1' p1 p1' N, (putAll env (⟨10, 4, knnCos, kfnCos⟩ : Factory ℝ) [1, 2] 7
        [(true, ⟨[1, 2], [], 0, false⟩), (false, ⟨[0, 0], [], 0, false⟩)]).run ⟨fun _ => [], []⟩ 0 = .ok ((List.replicate 2 200, w1), p1) ∧
      (putAll env (⟨10, 4, knnCos, kfnCos⟩ : Factory ℝ) [1, 2] 7
        [(true, ⟨[0, 0], [], 0, false⟩), (true, ⟨[1, 2], [], 0, false⟩)]).run ⟨fun _ => [], []⟩ 0 = .ok ((List.replicate 2 200, w1'), p1') ∧
      ∀ o : Api.QueryOpts ℝ, o.ns = 7 → o.vec.length = 2 → N ≤ o.n →
        ∃ (out out' : List (DataPoint ℝ)) (u u' : World ℝ) (q q' : Nat),
          (Api.queryDataPoint env [1, 2] (some o)).run w1 p1 = .ok (((200, out.map (fun d => ⟨d.vec, d.payload, d.expires, d.expireEnabled⟩)), u), q) ∧
          (Api.queryDataPoint env [1, 2] (some o)).run w1' p1' = .ok (((200, out'.map (fun d => ⟨d.vec, d.payload, d.expires, d.expireEnabled⟩)), u'), q') ∧
          out.Perm out' :=
  C146_enough_partial (D := fun _ => 2) env_ok (fun _ _ => rfl) ⟨by decide, rfl, rfl⟩ ⟨by simp, by simp, by simp, by simp⟩ (by simp) (by decide)
    (fun a _ => ⟨fun _ => rfl, fun _ => rfl⟩) 7 (by decide) (by simp [storedAt, World.get, World.lookup]) (by exact List.Perm.swap _ _ _) (by simp) 0

/-- C146: three datapoints put in either order at a node that divides at four. -/
example : ∃ w1 w1' p1 p1', (putAll env (⟨10, 4, knnCos, kfnCos⟩ : Factory ℝ) [1] 7
        [(true, ⟨[1, 2], [], 0, false⟩), (false, ⟨[3, 0], [], 0, false⟩), (true, ⟨[1, 1], [], 0, false⟩)]).run ⟨fun _ => [], []⟩ 0 =
          .ok ((List.replicate 3 200, w1), p1) ∧
      (putAll env (⟨10, 4, knnCos, kfnCos⟩ : Factory ℝ) [1] 7
        [(true, ⟨[3, 0], [], 0, false⟩), (true, ⟨[1, 2], [], 0, false⟩), (false, ⟨[1, 1], [], 0, false⟩)]).run ⟨fun _ => [], []⟩ 0 =
          .ok ((List.replicate 3 200, w1'), p1') ∧
      ∀ o : Api.QueryOpts ℝ, o.ns = 7 → o.vec.length = 2 → 0 ≤ o.n →
        ∃ (out out' : List (DataPoint ℝ)) (u u' : World ℝ) (q q' : Nat),
          (Api.queryDataPoint env [1] (some o)).run w1 p1 = .ok (((200, out.map (fun d => ⟨d.vec, d.payload, d.expires, d.expireEnabled⟩)), u), q) ∧
          (Api.queryDataPoint env [1] (some o)).run w1' p1' = .ok (((200, out'.map (fun d => ⟨d.vec, d.payload, d.expires, d.expireEnabled⟩)), u'), q') ∧
          out.map (fun d => cosineSimilarity o.vec d.vec) = out'.map (fun d => cosineSimilarity o.vec d.vec) :=
  C146_few_partial (D := fun _ => 2) env_ok (fun _ _ => rfl) ⟨by decide, rfl, rfl⟩ ⟨by simp, by simp, by simp, by simp⟩
    ⟨fun _ => rfl, fun _ => rfl⟩ 7 (by decide) (by simp [storedAt, World.get, World.lookup]) (by simp) (by exact List.Perm.swap _ _ _) (by simp)
    (by decide) (by simp [Roomy, World.get, World.lookup]) 0

end Trypo
