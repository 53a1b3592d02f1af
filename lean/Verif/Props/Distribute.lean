import Verif.Spec.Distribute
import Verif.Props.Core
import Verif.Props.Balance
import Verif.Props.Jobs

/-!
# C65, C66: distributing datapoints to other nodes
-/

set_option linter.unusedSectionVars false
set_option linter.unusedVariables false

namespace Trypo
open GoFloat Spec

variable {F : Type} [GoFloat F] [LawfulCmp F]

theorem _root_.Trypo.Spec.Acked.mono {env : Env} (hm : MonoClock env.tk) {p q : Nat} (h : p ≤ q) {D : NS → Nat} {a : Addr} {ns : NS}
    {d : DataPoint F} {w w' : World F} (hh : Acked (env.tk p) D a ns d w w') : Acked (env.tk q) D a ns d w w' := by
  obtain ⟨⟨m', e1, e2⟩, e3⟩ := hh
  exact ⟨⟨m', e1, e2.imp (fun e => e.mono hm h) id⟩, e3⟩

theorem _root_.Trypo.Spec.PutInOrder.mono {env : Env} (hm : MonoClock env.tk) {p q : Nat} (h : p ≤ q) {D : NS → Nat} {ns : NS}
    {d : DataPoint F} {as : List Addr} {w w' : World F} {ok : Bool} (hh : PutInOrder env (env.tk p) D ns d as w w' ok) :
    PutInOrder env (env.tk q) D ns d as w w' ok :=
  hh.imp id (fun ⟨e1, pre, a, post, e2, e3, e4⟩ => ⟨e1, pre, a, post, e2, e3, e4.mono hm h⟩)

theorem _root_.Trypo.Spec.Acked.get_ne_none {t : Int} {D : NS → Nat} {a b : Addr} {ns : NS} {d : DataPoint F} {w w' : World F}
    (h : Acked t D b ns d w w') (hg : w.get a ns ≠ none) : w'.get a ns ≠ none := by
  by_cases hab : a = b
  · subst hab
    obtain ⟨m', e, _⟩ := h.node
    rw [e]; simp
  · rw [h.others a ns (.inl hab)]; exact hg

theorem _root_.Trypo.Spec.PutInOrder.get_ne_none {env : Env} {t : Int} {D : NS → Nat} {a : Addr} {ns : NS} {d : DataPoint F}
    {as : List Addr} {w w' : World F} {ok : Bool} (h : PutInOrder env t D ns d as w w' ok) (hg : w.get a ns ≠ none) : w'.get a ns ≠ none := by
  rcases h with ⟨_, rfl, _⟩ | ⟨_, pre, b, post, _, _, h⟩
  · exact hg
  · exact h.get_ne_none hg

theorem wp_put_ok {env : Env} (hm : MonoClock env.tk) {fac : Factory F} (hf : FactoryOK fac) {D : NS → Nat} (ns : NS) (d : DataPoint F)
    (hd : d.vec.length = D ns) : ∀ (as : List Addr) (w : World F) (p : Nat), WorldOK D w →
    Go.wp ((Dps.putDataPoint env fac ns d as).run w) (fun r _ => WorldOK D r.2) p
  | [], w, p, hw => by
    unfold Dps.putDataPoint
    rw [run_pure, Go.wp_pure]; exact hw
  | a :: as, w, p, hw => by
    unfold Dps.putDataPoint
    rw [run_bind, Go.wp_bind]
    refine Go.wp_mono (wp_client_add hm hf hw a ns d p) (fun r p1 h => ?_)
    cases r.1 with
    | true => simp only [if_true, run_pure, Go.wp_pure]; exact h.2.1 hd
    | false =>
      simp only [Bool.false_eq_true, if_false]
      exact wp_put_ok hm hf ns d hd as r.2 p1 (h.2.1 hd)

theorem run_distributeTo (env : Env) (fac : Factory F) (ns : NS) (addrs : List Addr) (d : DataPoint F) {is : List Nat} {out : List Addr}
    (h : List.Forall₂ (fun i a => addrs[i]? = some a) is out) (w : World F) :
    (Server.distributeTo env fac ns addrs d is).run w = (Dps.putDataPoint env fac ns d out).run w := by
  induction h generalizing w with
  | nil => rfl
  | @cons i a is as h1 h2 ih =>
    unfold Server.distributeTo Dps.putDataPoint
    rw [run_bind, run_loc, show Go.idx addrs i = pure a by unfold Go.idx; rw [h1]]
    simp only [pure_bind]
    rw [run_bind, run_bind]
    congr 1
    funext q
    cases q.1 with
    | true => rfl
    | false => simpa using ih q.2

/-- Handing one datapoint to the best fitting of the nodes that answered. -/
theorem wp_distributeDP {env : Env} (hm : MonoClock env.tk) (hr : NoLostReplies env) {fac : Factory F} (hf : FactoryOK fac) {D : NS → Nat}
    {w : World F} (hw : WorldOK D w) (ns : NS) (d : DataPoint F) (hd : d.vec.length = D ns) {remote : List (Addr × List F)}
    {answers : List (Addr × Option (List F))}
    (ha : (remote.map (fun q => (q.1, some q.2))).Perm (answers.filter (fun q => match q.2 with
        | some v => decide (v ≠ [])
        | none => false))) (p : Nat) :
    Go.wp ((Server.distributeDP env fac ns remote d).run w) (fun r p' => p ≤ p' ∧ WorldOK D r.2 ∧ ∃ as,
      BestFit (cosineSimilarity d.vec) false answers as ∧ PutInOrder env (env.tk p') D ns d as w r.2 r.1) p := by
  unfold Server.distributeDP
  rw [run_bind, Go.wp_bind, run_loc]
  simp only [Go.wp_bind, Go.wp_lift]
  obtain ⟨res, k1, k2⟩ := knnCos_searchesBest d.vec (remote.map (fun q => q.2)) remote.length
  refine ⟨res, k1, ?_⟩
  obtain ⟨chosen, c1, c2, c3⟩ := kbest_all k2
  rw [Go.wp_pure, run_distributeTo (out := chosen.map (fun q => q.1))]
  · refine Go.wp_mono (Go.wp_and (wp_put hm hr hf hw ns d _ p) (wp_put_ok hm hf ns d hd _ w p hw)) (fun r p' hrr => ?_)
    refine ⟨hrr.1.1, hrr.2, _, ⟨chosen, rfl, ?_, c3⟩, hrr.1.2⟩
    let P : Addr × Option (List F) → Bool := fun q => match q.2 with | some u => isCandidate (cosineSimilarity d.vec) false u | none => false
    have e1 : (remote.filter (fun q => isCandidate (cosineSimilarity d.vec) false q.2)).map (fun q => (q.1, some q.2)) =
        (remote.map (fun q => (q.1, some q.2))).filter P := by rw [List.filter_map]; rfl
    refine (c2.map _).trans ((List.Perm.of_eq e1).trans ((ha.filter P).trans (List.Perm.of_eq ?_)))
    rw [List.filter_filter]
    refine List.filter_congr (fun q _ => ?_)
    obtain ⟨a, o⟩ := q
    cases o with
    | none => rfl
    | some u => exact Bool.and_comm _ _
  · rw [List.forall₂_map_right_iff]
    refine c1.imp (fun i q hq => ?_)
    rw [List.getElem?_map, hq]; rfl

theorem wp_putBack {env : Env} (hm : MonoClock env.tk) {D : NS → Nat} {w : World F} (hw : WorldOK D w) {a : Addr} {ns : NS}
    (hg : w.get a ns ≠ none) {d : DataPoint F} (hd : d.vec.length = D ns) (p : Nat) :
    Go.wp ((Server.putBack env a ns d).run w) (fun r p' => p ≤ p' ∧ WorldOK D r.2 ∧ Acked (env.tk p') D a ns d w r.2) p := by
  unfold Server.putBack
  obtain ⟨m, hg⟩ := Option.ne_none_iff_exists'.1 hg
  obtain ⟨i, hl, hi⟩ := lookup_of_get hw hg
  have hok := hw.mok hi
  rw [run_bind, run_access_some hl hi, bind_assoc, Go.wp_bind]
  refine Go.wp_mono (Go.wp_and (Manager.wp_addDataPoint hm hok.wf d p) (Manager.wp_addDataPoint_refused hm hok.wf d p))
    (fun r p' hr => ?_)
  obtain ⟨⟨h1, h2, h3, h4, h5⟩, h6⟩ := hr
  rw [pure_bind, run_pure, Go.wp_pure]
  refine ⟨h1, hw.put hi ?_, ⟨r.2, get_put_self hl hi, ?_⟩, fun b ns' hb => get_put_other hw hl hi hb⟩
  · cases hb : r.1 with
    | true => exact (hok.of_eff ((h3 hb).eff hm hok.wf) (by simpa using hd)).ok
    | false => rw [h2 hb]; exact hok.ok
  · rw [storedAt_one hg]
    cases hb : r.1 with
    | true => exact .inl ((h3 hb).eff hm hok.wf).conserved
    | false =>
      rw [h2 hb]
      by_cases hd : Dead (env.tk p') d
      · exact .inl ⟨[d], by permc [List.Perm.refl ([] : List (DataPoint F))], by simpa using hd⟩
      · obtain ⟨h7, h8⟩ := h6 hb hd
        rw [hok.knn, hok.len] at h8
        exact .inr ⟨hg, h7, h8⟩

/-- Handing out one datapoint and the rest. -/
theorem wp_handOne {env : Env} (hm : MonoClock env.tk) {D : NS → Nat} {a : Addr} {ns : NS}
    {choice : World F → DataPoint F → List Addr → Prop} {d : DataPoint F} {ds : List (DataPoint F)} (hd : d.vec.length = D ns)
    {w : World F} (hg : w.get a ns ≠ none) {send : Prog F Bool} {rest : Prog F Unit} {p : Nat}
    (hs : Go.wp (send.run w) (fun r p' => p ≤ p' ∧ WorldOK D r.2 ∧ ∃ as, choice w d as ∧ PutInOrder env (env.tk p') D ns d as w r.2 r.1) p)
    (hrest : ∀ w1 p1, WorldOK D w1 → w1.get a ns ≠ none →
      Go.wp (rest.run w1) (fun r p' => p1 ≤ p' ∧ WorldOK D r.2 ∧ Handed env (env.tk p') D a ns choice ds w1 r.2) p1) :
    Go.wp ((send >>= fun b => if b = true then rest else do Server.putBack env a ns d; rest).run w) (fun r p' => p ≤ p' ∧ WorldOK D r.2 ∧
      Handed env (env.tk p') D a ns choice (d :: ds) w r.2) p := by
  rw [run_bind, Go.wp_bind]
  refine Go.wp_mono hs (fun r p1 h => ?_)
  obtain ⟨h1, h2, as, h3, h4⟩ := h
  have hg1 := h4.get_ne_none hg
  cases hb : r.1 with
  | true =>
    rw [hb] at h4
    simp only [if_true]
    exact Go.wp_mono (hrest r.2 p1 h2 hg1) (fun q p2 hq => ⟨by omega, hq.2.1, .sent h3 (h4.mono hm hq.1) hq.2.2⟩)
  | false =>
    rw [hb] at h4
    obtain ⟨_, h5, h6⟩ := h4.resolve_right (by rintro ⟨h, _⟩; cases h)
    simp only [Bool.false_eq_true, if_false]
    rw [run_bind, Go.wp_bind, h5]
    rw [h5] at h2
    refine Go.wp_mono (wp_putBack hm h2 hg hd p1) (fun q p2 hq => ?_)
    exact Go.wp_mono (hrest q.2 p2 hq.2.1 (hq.2.2.get_ne_none hg)) (fun z p3 hz =>
      ⟨by omega, hz.2.1, .kept h3 h6 (hq.2.2.mono hm hz.1) hz.2.2⟩)

theorem wp_fastLoop {env : Env} (hm : MonoClock env.tk) (hr : NoLostReplies env) {fac : Factory F} (hf : FactoryOK fac) {D : NS → Nat}
    (a : Addr) (ns : NS) {remote : List (Addr × List F)} {answers : List (Addr × Option (List F))}
    (ha : (remote.map (fun q => (q.1, some q.2))).Perm (answers.filter (fun q => match q.2 with
        | some v => decide (v ≠ [])
        | none => false))) : ∀ (ds : List (DataPoint F)) (w : World F) (p : Nat), WorldOK D w → w.get a ns ≠ none →
    (∀ d ∈ ds, d.vec.length = D ns) →
    Go.wp ((Server.distributeFastLoop env fac a ns remote ds).run w) (fun r p' => p ≤ p' ∧ WorldOK D r.2 ∧
      Handed env (env.tk p') D a ns (fastChoice answers) ds w r.2) p
  | [], w, p, hw, hg, hd => by
    unfold Server.distributeFastLoop
    rw [run_pure, Go.wp_pure]
    exact ⟨Nat.le_refl _, hw, .nil⟩
  | d :: ds, w, p, hw, hg, hd => by
    unfold Server.distributeFastLoop
    exact wp_handOne hm (hd d (by simp)) hg (wp_distributeDP hm hr hf hw ns d (hd d (by simp)) ha p)
      (fun w1 p1 hw1 hg1 => wp_fastLoop hm hr hf a ns ha ds w1 p1 hw1 hg1 (fun x hx => hd x (by simp [hx])))

theorem wp_accurateLoop {env : Env} (he : EnvOK env) (hr : NoLostReplies env) {fac : Factory F} (hf : FactoryOK fac) {D : NS → Nat}
    (a : Addr) (ns : NS) (addrs : List Addr) : ∀ (ds : List (DataPoint F)) (w : World F) (p : Nat), WorldOK D w → w.get a ns ≠ none →
    (∀ d ∈ ds, d.vec.length = D ns) →
    Go.wp ((Server.distributeAccurateLoop env fac a ns addrs ds).run w) (fun r p' => p ≤ p' ∧ WorldOK D r.2 ∧
      Handed env (env.tk p') D a ns (accurateChoice env ns addrs) ds w r.2) p
  | [], w, p, hw, hg, hd => by
    unfold Server.distributeAccurateLoop
    rw [run_pure, Go.wp_pure]
    exact ⟨Nat.le_refl _, hw, .nil⟩
  | d :: ds, w, p, hw, hg, hd => by
    unfold Server.distributeAccurateLoop
    rw [run_bind, Go.wp_bind]
    refine Go.wp_mono (wp_fetchVecs he (R := fun a r => AccurateAnswer env w ns d.vec (a, r)) (fun b p => wp_nearestVec_heard hw b ns d.vec p) p)
      (fun r p1 h => ?_)
    obtain ⟨h1, h2, answers, h3, h4, h5⟩ := h
    rw [h2]
    refine Go.wp_mono (wp_handOne (choice := accurateChoice env ns addrs) he.clock (hd d (by simp)) hg (Go.wp_mono
      (wp_distributeDP he.clock hr hf hw ns d (hd d (by simp)) h5 p1) (fun q p2 hq => ?_))
      (fun w1 p1 hw1 hg1 => wp_accurateLoop he hr hf a ns addrs ds w1 p1 hw1 hg1 (fun x hx => hd x (by simp [hx]))))
      (fun q p2 hq => ⟨by omega, hq.2⟩)
    obtain ⟨e1, e2, as, e3, e4⟩ := hq
    exact ⟨e1, e2, as, ⟨answers, h3, h4, e3⟩, e4⟩

/-- Draining, as both variants begin. -/
theorem wp_takeOut {env : Env} (he : EnvOK env) {D : NS → Nat} {w : World F} (hw : WorldOK D w) {a : Addr} {ns : NS}
    {m : Manager F} (hg : w.get a ns = some m) {n : Int} (hn : 0 ≤ n) (p : Nat) :
    Go.wp ((Server.drainOrdered env a ns n).run w) (fun r p' => p ≤ p' ∧ WorldOK D r.2 ∧ r.2.get a ns ≠ none ∧ ∃ dps, r.1 = some dps ∧
      (∀ d ∈ dps, d.vec.length = D ns) ∧ ∀ q, p' ≤ q → TakenOut env (env.tk p) (env.tk q) a ns n m dps w r.2) p := by
  unfold Server.drainOrdered
  obtain ⟨i, hl, hi⟩ := lookup_of_get hw hg
  have hok := hw.mok hi
  rw [run_access_some hl hi, Go.wp_bind, Go.wp_bind]
  refine wp_mapOrder he (fun ord ho => ?_)
  obtain ⟨r, p1, h0, h1, h2, h3, h4⟩ := Go.wp_iff.1 (Manager.wp_drainOrdered he.clock ho hok.wf hn (p + 1))
  refine Go.wp_iff.2 ⟨r, p1, h0, ?_⟩
  rw [Go.wp_pure]
  have hmok := hok.of_eff h1 (by simp)
  refine ⟨by have := h1.le; omega, hw.put hi hmok.ok, ?_, r.1, rfl, fun d hd => ?_, fun q hq => ?_⟩
  · rw [get_put_self hl hi]; simp
  · have hmem : d ∈ Centroid.flat m.centroids := by
      obtain ⟨lost, e1, _⟩ := h1.conserved
      simpa using e1.subset (List.mem_append_left _ (List.mem_append_right _ hd))
    obtain ⟨c, hc, hdc⟩ := List.mem_flatMap.1 hmem
    rw [(hok.wf.dim c hc).2 d hdc, (hok.wf.dim c hc).1, hok.len]
  · exact ⟨h4, fun d hd => fun h => h3 d hd (h.mono he.clock (by omega)), ⟨r.2, get_put_self hl hi, h1.conserved.mono he.clock hq, ord, p + 1, p1, ho, h0⟩,
      fun b ns' hb => get_put_other hw hl hi hb⟩

theorem wp_distributeFast {env : Env} (he : EnvOK env) (hr : NoLostReplies env) {fac : Factory F} (hf : FactoryOK fac) {D : NS → Nat}
    {w : World F} (hw : WorldOK D w) {a : Addr} {ns : NS} {m : Manager F} (hg : w.get a ns = some m) {n : Int} (hn : 0 ≤ n)
    (addrs : List Addr) (p : Nat) :
    Go.wp ((Server.distributeFast env fac a ns n addrs).run w) (fun r p' => p ≤ p' ∧ WorldOK D r.2 ∧ r.1 = some () ∧
      DistributedFast env (env.tk p) (env.tk p') D a ns n addrs m w r.2) p := by
  unfold Server.distributeFast
  rw [run_bind, Go.wp_bind, run_loc, Go.wp_bind, Go.wp_checkMake]
  refine ⟨hn, ?_⟩
  rw [Go.wp_pure, run_bind, Go.wp_bind]
  refine Go.wp_mono (wp_takeOut he hw hg hn p) (fun r p1 h => ?_)
  obtain ⟨h1, h2, h3, dps, h4, h5, h6⟩ := h
  rw [h4]
  simp only
  split
  · rename_i hor
    rw [run_pure, Go.wp_pure]
    exact ⟨h1, h2, rfl, dps, r.2, h6 p1 (Nat.le_refl _), .inl ⟨hor.imp List.length_eq_zero_iff.1 List.length_eq_zero_iff.1, rfl⟩⟩
  · rename_i hor
    rw [run_bind, Go.wp_bind]
    refine Go.wp_mono (wp_fetchVecs he (R := fun b r' => FastAnswer env r.2 ns (b, r')) (fun b p => wp_vec_heard h2 b ns p) p1)
      (fun q p2 hq => ?_)
    obtain ⟨e1, e2, answers, e3, e4, e5⟩ := hq
    rw [run_bind, Go.wp_bind, e2]
    refine Go.wp_mono (wp_fastLoop he.clock hr hf a ns e5 dps r.2 p2 h2 h3 h5) (fun z p3 hz => ?_)
    rw [run_pure, Go.wp_pure]
    exact ⟨by omega, hz.2.1, rfl, dps, r.2, h6 p3 (by omega), .inr ⟨answers, e3, e4, hz.2.2⟩⟩

theorem wp_distributeAccurate {env : Env} (he : EnvOK env) (hr : NoLostReplies env) {fac : Factory F} (hf : FactoryOK fac) {D : NS → Nat}
    {w : World F} (hw : WorldOK D w) {a : Addr} {ns : NS} {m : Manager F} (hg : w.get a ns = some m) {n : Int} (hn : 0 ≤ n)
    (addrs : List Addr) (p : Nat) :
    Go.wp ((Server.distributeAccurate env fac a ns n addrs).run w) (fun r p' => p ≤ p' ∧ WorldOK D r.2 ∧ r.1 = some () ∧
      DistributedAccurate env (env.tk p) (env.tk p') D a ns n addrs m w r.2) p := by
  unfold Server.distributeAccurate
  rw [run_bind, Go.wp_bind, run_loc, Go.wp_bind, Go.wp_checkMake]
  refine ⟨hn, ?_⟩
  rw [Go.wp_pure, run_bind, Go.wp_bind]
  refine Go.wp_mono (wp_takeOut he hw hg hn p) (fun r p1 h => ?_)
  obtain ⟨h1, h2, h3, dps, h4, h5, h6⟩ := h
  rw [h4]
  simp only
  split
  · rename_i hor
    rw [run_pure, Go.wp_pure]
    exact ⟨h1, h2, rfl, dps, r.2, h6 p1 (Nat.le_refl _), .inl ⟨hor.imp List.length_eq_zero_iff.1 List.length_eq_zero_iff.1, rfl⟩⟩
  · rename_i hor
    rw [run_bind, Go.wp_bind]
    refine Go.wp_mono (wp_accurateLoop he hr hf a ns addrs dps r.2 p1 h2 h3 h5) (fun z p3 hz => ?_)
    rw [run_pure, Go.wp_pure]
    exact ⟨by omega, hz.2.1, rfl, dps, r.2, h6 p3 (by omega), .inr hz.2.2⟩

/-- **C65.** `DistributeDataPointsFast`, run alone: at most `n` datapoints (but possibly one for `n = 0`) are taken out of the node as
`DrainOrdered` does; every address is asked once for the vector of its manager; every datapoint then goes to the first node that can be
reached, the most similar first, or back. -/
theorem C65_fast {env : Env} (he : EnvOK env) (hr : NoLostReplies env) {fac : Factory F} (hf : FactoryOK fac) {D : NS → Nat}
    {w : World F} (hw : WorldOK D w) {a : Addr} {ns : NS} {m : Manager F} (hg : w.get a ns = some m) {n : Int} (hn : 0 ≤ n)
    (addrs : List Addr) (p : Nat) :
    ∃ w' p', (Server.distributeFast env fac a ns n addrs).run w p = .ok ((some (), w'), p') ∧ WorldOK D w' ∧
      DistributedFast env (env.tk p) (env.tk p') D a ns n addrs m w w' := by
  obtain ⟨⟨o, w'⟩, p', h0, _, h2, h3, h4⟩ := Go.wp_iff.1 (wp_distributeFast he hr hf hw hg hn addrs p)
  cases h3
  exact ⟨w', p', h0, h2, h4⟩

/-- **C65.** `DistributeDataPointsAccurate`, run alone: likewise, but every address is asked for every datapoint, for the vector of its
centroid nearest to the datapoint. -/
theorem C65_accurate {env : Env} (he : EnvOK env) (hr : NoLostReplies env) {fac : Factory F} (hf : FactoryOK fac) {D : NS → Nat}
    {w : World F} (hw : WorldOK D w) {a : Addr} {ns : NS} {m : Manager F} (hg : w.get a ns = some m) {n : Int} (hn : 0 ≤ n)
    (addrs : List Addr) (p : Nat) :
    ∃ w' p', (Server.distributeAccurate env fac a ns n addrs).run w p = .ok ((some (), w'), p') ∧ WorldOK D w' ∧
      DistributedAccurate env (env.tk p) (env.tk p') D a ns n addrs m w w' := by
  obtain ⟨⟨o, w'⟩, p', h0, _, h2, h3, h4⟩ := Go.wp_iff.1 (wp_distributeAccurate he hr hf hw hg hn addrs p)
  cases h3
  exact ⟨w', p', h0, h2, h4⟩

/-! ### What it means for the nodes -/

theorem _root_.Trypo.Spec.Acked.get_eq_none {t : Int} {D : NS → Nat} {b : Addr} {ns : NS} {d : DataPoint F} {w w' : World F}
    (h : Acked t D b ns d w w') (hb : w.get b ns ≠ none) (c : Addr) (ns' : NS) : w'.get c ns' = none ↔ w.get c ns' = none := by
  by_cases hc : c = b ∧ ns' = ns
  · obtain ⟨rfl, rfl⟩ := hc
    obtain ⟨m', e, _⟩ := h.node
    simp [e, hb]
  · rw [h.others c ns' (by by_cases hh : c = b <;> [right; left] <;> [exact fun h' => hc ⟨hh, h'⟩; exact hh])]

theorem _root_.Trypo.Spec.Acked.mem {t : Int} {D : NS → Nat} {b : Addr} {ns : NS} {d : DataPoint F} {w w' : World F}
    (h : Acked t D b ns d w w') (c : Addr) (ns' : NS) {x : DataPoint F} (hx : x ∈ storedAt w' [c] ns') :
    x ∈ storedAt w [c] ns' ∨ ns' = ns ∧ x = d := by
  by_cases hc : c = b ∧ ns' = ns
  · obtain ⟨rfl, rfl⟩ := hc
    obtain ⟨m', e, h1 | h1⟩ := h.node
    · rw [storedAt_one e] at hx
      have := mem_of_conserved h1 hx
      rcases List.mem_cons.1 this with h | h
      · exact .inr ⟨rfl, h⟩
      · exact .inl h
    · rw [storedAt_one e] at hx
      rw [storedAt_one h1.1]; exact .inl hx
  · rw [storedAt_congr (w := w)] at hx
    · exact .inl hx
    · intro z hz
      rw [List.mem_singleton.1 hz]
      exact h.others c ns' (by by_cases hh : c = b <;> [right; left] <;> [exact fun h' => hc ⟨hh, h'⟩; exact hh])

theorem _root_.Trypo.Spec.Handed.facts {env : Env} {t : Int} {D : NS → Nat} {a : Addr} {ns : NS}
    {choice : World F → DataPoint F → List Addr → Prop} {ds : List (DataPoint F)} {w w' : World F} (h : Handed env t D a ns choice ds w w')
    (hc : ∀ w1 d as, (∀ b ns', w1.get b ns' = none ↔ w.get b ns' = none) → choice w1 d as → ∀ b ∈ as, w1.get b ns ≠ none)
    (ha : w.get a ns ≠ none) : (∀ b ns', w'.get b ns' = none ↔ w.get b ns' = none) ∧
      ∀ b ns' x, x ∈ storedAt w' [b] ns' → x ∈ storedAt w [b] ns' ∨ ns' = ns ∧ x ∈ ds := by
  induction h with
  | nil => exact ⟨fun _ _ => Iff.rfl, fun b ns' x hx => .inl hx⟩
  | @sent d ds w w1 w2 as h1 h2 h3 ih =>
    obtain ⟨_, pre, b, post, e1, e2, e3⟩ := h2.resolve_left (by rintro ⟨h, _⟩; cases h)
    have hb := hc w d as (fun _ _ => Iff.rfl) h1 b (by simp [e1])
    have hn := e3.get_eq_none hb
    obtain ⟨i1, i2⟩ := ih (fun w2 d as hw hcc => hc w2 d as (fun b ns' => (hw b ns').trans (hn b ns')) hcc) (by rw [Ne, hn]; exact ha)
    refine ⟨fun b ns' => (i1 b ns').trans (hn b ns'), fun c ns' x hx => ?_⟩
    rcases i2 c ns' x hx with hx | ⟨hx, hx'⟩
    · rcases e3.mem c ns' hx with h | ⟨h, rfl⟩
      · exact .inl h
      · exact .inr ⟨h, by simp⟩
    · exact .inr ⟨hx, by simp [hx']⟩
  | @kept d ds w w1 w2 as h1 h2 e3 h3 ih =>
    have hn := e3.get_eq_none ha
    obtain ⟨i1, i2⟩ := ih (fun w2 d as hw hcc => hc w2 d as (fun b ns' => (hw b ns').trans (hn b ns')) hcc) (by rw [Ne, hn]; exact ha)
    refine ⟨fun b ns' => (i1 b ns').trans (hn b ns'), fun c ns' x hx => ?_⟩
    rcases i2 c ns' x hx with hx | ⟨hx, hx'⟩
    · rcases e3.mem c ns' hx with h | ⟨h, rfl⟩
      · exact .inl h
      · exact .inr ⟨h, by simp⟩
    · exact .inr ⟨hx, by simp [hx']⟩

theorem bestFit_answer {dist : List F → Option F} {asc : Bool} {answers : List (Addr × Option (List F))} {as : List Addr}
    (h : BestFit dist asc answers as) : ∀ a ∈ as, ∃ v, (a, some v) ∈ answers := by
  obtain ⟨chosen, rfl, h2, _⟩ := h
  intro a ha
  obtain ⟨q, hq, rfl⟩ := List.mem_map.1 ha
  exact ⟨q.2, (List.mem_filter.1 (h2.subset (List.mem_map.2 ⟨q, hq, rfl⟩))).1⟩

theorem heard_some {β : Type} {env : Env} {a : Addr} {val : Option β} {v : β} (h : Heard env a val (some v)) : val = some v := by
  rcases h with h | ⟨h, _⟩
  · exact h.symm
  · cases h

/-- What a distribution of either kind means for the nodes. -/
theorem distributed_facts {env : Env} {t0 t : Int} {D : NS → Nat} {a : Addr} {ns : NS} {n : Int} {addrs : List Addr} {m : Manager F}
    {w w' : World F} (hg : w.get a ns = some m)
    (h : DistributedFast env t0 t D a ns n addrs m w w' ∨ DistributedAccurate env t0 t D a ns n addrs m w w') :
    (∀ b ns', w'.get b ns' = none ↔ w.get b ns' = none) ∧ ∃ moved : List (DataPoint F), (moved.length : Int) ≤ max n 1 ∧
      (∀ d ∈ moved, d ∈ stored m ∧ ¬ Dead t0 d) ∧
      ∀ b ns' x, x ∈ storedAt w' [b] ns' → x ∈ storedAt w [b] ns' ∨ ns' = ns ∧ x ∈ moved := by
  have key : ∀ dps w1, TakenOut env t0 t a ns n m dps w w1 → (w' = w1 ∨ ∃ choice, Handed env t D a ns choice dps w1 w' ∧
      ∀ w2 d as, (∀ b ns', w2.get b ns' = none ↔ w1.get b ns' = none) → choice w2 d as → ∀ b ∈ as, w2.get b ns ≠ none) →
      (∀ b ns', w'.get b ns' = none ↔ w.get b ns' = none) ∧ ∃ moved : List (DataPoint F), (moved.length : Int) ≤ max n 1 ∧
      (∀ d ∈ moved, d ∈ stored m ∧ ¬ Dead t0 d) ∧
      ∀ b ns' x, x ∈ storedAt w' [b] ns' → x ∈ storedAt w [b] ns' ∨ ns' = ns ∧ x ∈ moved := by
    intro dps w1 ht hh
    obtain ⟨m', e1, e2, e3⟩ := ht.node
    have hn1 : ∀ b ns', w1.get b ns' = none ↔ w.get b ns' = none := by
      intro b ns'
      by_cases hc : b = a ∧ ns' = ns
      · obtain ⟨rfl, rfl⟩ := hc
        simp [e1, hg]
      · rw [ht.others b ns' (by by_cases hh : b = a <;> [right; left] <;> [exact fun h' => hc ⟨hh, h'⟩; exact hh])]
    have hm1 : ∀ b ns' x, x ∈ storedAt w1 [b] ns' → x ∈ storedAt w [b] ns' := by
      intro b ns' x hx
      by_cases hc : b = a ∧ ns' = ns
      · obtain ⟨rfl, rfl⟩ := hc
        rw [storedAt_one e1] at hx
        rw [storedAt_one hg]
        exact mem_of_conserved e2 hx
      · rw [storedAt_congr (w := w)] at hx
        · exact hx
        · intro z hz
          rw [List.mem_singleton.1 hz]
          exact ht.others b ns' (by by_cases hh : b = a <;> [right; left] <;> [exact fun h' => hc ⟨hh, h'⟩; exact hh])
    have hd : ∀ d ∈ dps, d ∈ stored m ∧ ¬ Dead t0 d := by
      intro d hd
      refine ⟨?_, ht.live d hd⟩
      obtain ⟨lost, p1, _⟩ := e2
      exact p1.subset (List.mem_append_left _ (List.mem_append_right _ hd))
    rcases hh with rfl | ⟨choice, hh, hch⟩
    · exact ⟨hn1, dps, ht.few, hd, fun b ns' x hx => .inl (hm1 b ns' x hx)⟩
    · obtain ⟨f1, f2⟩ := hh.facts hch (by rw [e1]; simp)
      exact ⟨fun b ns' => (f1 b ns').trans (hn1 b ns'), dps, ht.few, hd, fun b ns' x hx => (f2 b ns' x hx).imp (hm1 b ns' x) id⟩
  rcases h with ⟨dps, w1, ht, h⟩ | ⟨dps, w1, ht, h⟩
  · refine key dps w1 ht (h.imp (fun h => h.2) (fun ⟨answers, _, h2, h3⟩ => ⟨_, h3, fun w2 d as hw hc b hb => ?_⟩))
    obtain ⟨v, hv⟩ := bestFit_answer hc b hb
    have := heard_some (h2 _ hv)
    rw [Ne, hw]
    intro h
    dsimp only at this
    rw [h] at this
    cases this
  · refine key dps w1 ht (h.imp (fun h => h.2) (fun h3 => ⟨_, h3, fun w2 d as hw hc b hb => ?_⟩))
    obtain ⟨answers, _, h2, hc⟩ := hc
    obtain ⟨v, hv⟩ := bestFit_answer hc b hb
    obtain ⟨val, h4, h5⟩ := h2 _ hv
    have := heard_some h5
    rcases h4 with ⟨_, h4⟩ | ⟨m, u, h4, _⟩
    · rw [h4] at this; cases this
    · rw [h4]; simp

/-- **C65.** Of a distribution, in short: no node gets or loses a namespace, at most `n` datapoints (one for `n = 0`) are moved, all of
them stored at the node before and not expired, and no node holds anything new but moved datapoints. -/
theorem C65_moves {env : Env} (he : EnvOK env) (hr : NoLostReplies env) {fac : Factory F} (hf : FactoryOK fac) {D : NS → Nat}
    {w : World F} (hw : WorldOK D w) {a : Addr} {ns : NS} {m : Manager F} (hg : w.get a ns = some m) {n : Int} (hn : 0 ≤ n)
    (addrs : List Addr) (p : Nat) {prog : Prog F (Option Unit)}
    (hp : prog = Server.distributeFast env fac a ns n addrs ∨ prog = Server.distributeAccurate env fac a ns n addrs) :
    ∃ w' p', prog.run w p = .ok ((some (), w'), p') ∧ (∀ b ns', w'.get b ns' = none ↔ w.get b ns' = none) ∧
      ∃ moved : List (DataPoint F), (moved.length : Int) ≤ max n 1 ∧ (∀ d ∈ moved, d ∈ stored m ∧ ¬ Dead (env.tk p) d) ∧
        ∀ b ns' x, x ∈ storedAt w' [b] ns' → x ∈ storedAt w [b] ns' ∨ ns' = ns ∧ x ∈ moved := by
  rcases hp with rfl | rfl
  · obtain ⟨w', p', h1, h2, h3⟩ := C65_fast he hr hf hw hg hn addrs p
    exact ⟨w', p', h1, distributed_facts hg (.inl h3)⟩
  · obtain ⟨w', p', h1, h2, h3⟩ := C65_accurate he hr hf hw hg hn addrs p
    exact ⟨w', p', h1, distributed_facts hg (.inr h3)⟩

open ServerExample in
/-- C65: node 1 holds (1,0) and (2,0), node 2 holds (0,1). Of the two equally far ones the first is moved; it fits node 1 best and goes back.
When only node 2 is offered, it goes there. -/
example : (∃ r p', ((fun r => (r.1, storedAt r.2 [1] 7, storedAt r.2 [2] 7)) <$> (Server.distributeFast env fac 1 7 1 [1, 2]).run two) 0 = .ok (r, p') ∧
      r = (some (), [dp 2 0, dp 1 0], storedAt two [2] 7)) ∧
    (∃ r p', ((fun r => (r.1, storedAt r.2 [1] 7, storedAt r.2 [2] 7)) <$> (Server.distributeAccurate env fac 1 7 1 [2]).run two) 0 = .ok (r, p') ∧
      r = (some (), [dp 2 0], storedAt two [2] 7 ++ [dp 1 0])) :=
  ⟨exists_of_run (f := id) (by decide +kernel), exists_of_run (f := id) (by decide +kernel)⟩

open ServerExample in
/-- C65: the theorem for this world. -/
example (n : Nat) (addrs : List Addr) : ∃ w' p', (Server.distributeFast env fac 1 7 n addrs).run two 0 = .ok ((some (), w'), p') ∧
    (∀ b ns', w'.get b ns' = none ↔ two.get b ns' = none) := by
  obtain ⟨w', p', h1, h2, _⟩ := C65_moves env_ok (fun _ _ => rfl) fac_ok two_ok (a := 1) (ns := 7) rfl (n := n) (by omega) addrs 0 (.inl rfl)
  exact ⟨w', p', h1, h2⟩

/-! ### C66: the distribution tasks -/

namespace EventLoop

/-- The call of the distribution task to the local node for one namespace. -/
theorem wp_client_distribute {env : Env} {D : NS → Nat} {loc : Addr} {body : Prog F (Option Unit)} {w : World F} (hw : WorldOK D w)
    {R : Nat → Nat → World F → Prop} (h : ∀ p, Go.wp (body.run w) (fun r p' => p ≤ p' ∧ WorldOK D r.2 ∧ R p p' r.2) p) (p : Nat) :
    Go.wp ((do let _ ← Client.call env loc body; pure () : Prog F Unit).run w) (fun r p' => p ≤ p' ∧ WorldOK D r.2 ∧
      ((r.2 = w ∧ Down env loc) ∨ ∃ q q', p ≤ q ∧ q ≤ q' ∧ q' ≤ p' ∧ R q q' r.2)) p := by
  unfold Client.call
  rw [run_bind, Go.wp_bind, run_bind, Go.wp_bind, run_loc, Go.wp_bind]
  refine wp_sent ?_
  rw [Go.wp_pure]
  simp only
  cases hup : env.up p loc with
  | false =>
    simp only [Bool.false_eq_true, if_false, run_pure, Go.wp_pure]
    exact ⟨by omega, hw, .inl ⟨trivial, p, hup⟩⟩
  | true =>
    simp only [if_true]
    rw [run_bind, Go.wp_bind]
    refine Go.wp_mono (h (p + 1)) (fun r p1 hrr => ?_)
    rw [run_bind, Go.wp_bind, run_loc, Go.wp_bind]
    refine wp_arrived ?_
    cases env.back p1 loc <;> simp only [Bool.false_eq_true, if_false, if_true, run_pure, Go.wp_pure] <;>
      exact ⟨by omega, hrr.2.1, .inr ⟨_, _, by omega, hrr.1, by omega, hrr.2.2⟩⟩

theorem wp_rounds {env : Env} (he : EnvOK env) {D : NS → Nat} {loc : Addr} {remotes : List Addr} {body : NS → List Addr → Prog F (Option Unit)}
    {R : Nat → Nat → NS → List Addr → World F → World F → Prop} {p0 : Nat}
    (h : ∀ ns addrs w p, WorldOK D w → w.get loc ns ≠ none → Go.wp ((body ns addrs).run w)
      (fun r p' => p ≤ p' ∧ WorldOK D r.2 ∧ (∀ ns', w.get loc ns' ≠ none → r.2.get loc ns' ≠ none) ∧ R p p' ns addrs w r.2) p) :
    ∀ (names : List NS) (w : World F) (p : Nat), WorldOK D w → (∀ ns ∈ names, w.get loc ns ≠ none) → p0 ≤ p →
    Go.wp ((Prog.each (fun ns => do
      let t ← namespaceTable env remotes
      (do let _ ← Client.call env loc (body ns (addrsWithNamespace t ns)); pure () : Prog F Unit)) names).run w)
      (fun r p' => p ≤ p' ∧ WorldOK D r.2 ∧ Rounds env loc remotes
        (fun ns addrs w w' => ∃ q q', p0 ≤ q ∧ q ≤ q' ∧ q' ≤ p' ∧ R q q' ns addrs w w') names w r.2) p
  | [], w, p, hw, _, _ => by
    unfold Prog.each
    rw [run_pure, Go.wp_pure]; exact ⟨by omega, hw, .nil⟩
  | ns :: names, w, p, hw, hn, hp => by
    unfold Prog.each
    rw [run_bind, Go.wp_bind, run_bind, Go.wp_bind]
    obtain ⟨t, replies, p1, h0, h1, rfl, h3, h4⟩ := C54_run he hw remotes p
    refine Go.wp_iff.2 ⟨_, _, h1, ?_⟩
    dsimp only
    rw [(C54_table replies).2.2 ns]
    refine Go.wp_mono (wp_client_distribute (R := fun q q' w' => (∀ ns', w.get loc ns' ≠ none → w'.get loc ns' ≠ none) ∧
      R q q' ns (reporters replies ns) w w') hw (fun q => Go.wp_mono (h ns _ w q hw (hn ns (by simp))) (fun r p' hr => hr)) p1) (fun r p2 hr => ?_)
    obtain ⟨e1, e2, e3⟩ := hr
    have hn' : ∀ ns' ∈ names, r.2.get loc ns' ≠ none := by
      intro ns' hm
      rcases e3 with ⟨e3, _⟩ | ⟨_, _, _, _, _, e3, _⟩
      · rw [e3]; exact hn ns' (by simp [hm])
      · exact e3 ns' (hn ns' (by simp [hm]))
    rw [run_bind, Go.wp_bind]
    refine Go.wp_mono (wp_rounds (p0 := p0) he h names r.2 p2 e2 hn' (by omega)) (fun r2 p3 hr2 => ?_)
    rw [run_pure, Go.wp_pure]
    refine ⟨by omega, hr2.2.1, .cons h3 (fun x hx => ⟨(h4 x hx).1, (h4 x hx).2.imp_left (fun h ns' => by
      rw [h ns']; exact Option.ne_none_iff_exists'.symm)⟩) (e3.imp_right (fun ⟨q, q', g1, g2, g3, _, g4⟩ =>
      ⟨q, q', by omega, g2, by omega, g4⟩)) hr2.2.2⟩

theorem wp_withAddrs {env : Env} (he : EnvOK env) {D : NS → Nat} (cfg : Config) {body : NS → List Addr → Prog F (Option Unit)}
    {R : Nat → Nat → NS → List Addr → World F → World F → Prop} {w : World F} (hw : WorldOK D w) (p : Nat)
    (h : ∀ ns addrs w p, WorldOK D w → w.get cfg.loc ns ≠ none → Go.wp ((body ns addrs).run w)
      (fun r p' => p ≤ p' ∧ WorldOK D r.2 ∧ (∀ ns', w.get cfg.loc ns' ≠ none → r.2.get cfg.loc ns' ≠ none) ∧ R p p' ns addrs w r.2) p) :
    Go.wp ((withAddrs env cfg (fun ns addrs => do let _ ← Client.call env cfg.loc (body ns addrs); pure ())).run w)
      (fun r p' => WorldOK D r.2 ∧ r.1 = .done ∧ ∃ names, HeardNames env w (cfg.loc, names) ∧ Rounds env cfg.loc cfg.remotes
        (fun ns addrs w w' => ∃ q q', p ≤ q ∧ q ≤ q' ∧ q' ≤ p' ∧ R q q' ns addrs w w') names w r.2) p := by
  unfold withAddrs
  rw [run_bind, Go.wp_bind]
  refine Go.wp_mono (wp_client_namespaces he hw cfg.loc p) (fun r p1 hr => ?_)
  obtain ⟨names, w0⟩ := r
  obtain ⟨h1, h2, h3, h4⟩ := hr
  dsimp only at h2 h3 h4
  subst h2
  rw [run_bind, Go.wp_bind]
  refine Go.wp_mono (wp_rounds (p0 := p) he h names w0 p1 hw (fun ns hns => ?_) h1) (fun r2 p2 hr2 => ?_)
  · rcases h4 with h4 | ⟨h4, _⟩
    · exact Option.ne_none_iff_exists'.2 ((h4 ns).1 hns)
    · rw [h4] at hns; cases hns
  · rw [run_pure, Go.wp_pure]
    exact ⟨hr2.2.1, rfl, names, ⟨h3, h4.imp_left (fun h ns' => by rw [h ns']; exact Option.ne_none_iff_exists'.symm)⟩, hr2.2.2⟩

end EventLoop

open EventLoop

/-- **C66**, the fast task, run while nothing else runs: it asks the local node for its namespaces, and for each of them, in the order
of the answer, has the local node distribute `DistributeDataPointsFastN` datapoints to exactly those of `RemoteAddrs` that report the
namespace then. -/
theorem C66_fast {env : Env} (he : EnvOK env) (hr : NoLostReplies env) {fac : Factory F} (hf : FactoryOK fac) {D : NS → Nat}
    {w : World F} (hw : WorldOK D w) (fuel : Nat) (cfg : Config) (hn : 0 ≤ cfg.fastN) (p : Nat) :
    ∃ names w' p', (task env fac fuel cfg .distFast).run w p = .ok ((.done, w'), p') ∧ WorldOK D w' ∧ HeardNames env w (cfg.loc, names) ∧
      Rounds env cfg.loc cfg.remotes (fastRound env D cfg.loc cfg.fastN p p') names w w' := by
  obtain ⟨⟨r, w'⟩, p', h1, h2, h3, names, h4, h5⟩ := Go.wp_iff.1 (wp_withAddrs he cfg (D := D) hw p
    (body := fun ns addrs => Server.distributeFast env fac cfg.loc ns cfg.fastN addrs)
    (R := fun q q' ns addrs w w' => ∃ m, w.get cfg.loc ns = some m ∧ DistributedFast env (env.tk q) (env.tk q') D cfg.loc ns cfg.fastN addrs m w w')
    (fun ns addrs w p hw hne => by
      obtain ⟨m, hg⟩ := Option.ne_none_iff_exists'.1 hne
      refine Go.wp_mono (wp_distributeFast he hr hf hw hg hn addrs p) (fun r p' hr => ⟨hr.1, hr.2.1, fun ns' h => ?_, m, hg, hr.2.2.2⟩)
      exact fun h' => h (((distributed_facts hg (.inl hr.2.2.2)).1 _ _).1 h')))
  dsimp only at h2 h3 h5
  subst h3
  exact ⟨names, w', p', h1, h2, h4, h5⟩

/-- **C66**, the accurate task. -/
theorem C66_accurate {env : Env} (he : EnvOK env) (hr : NoLostReplies env) {fac : Factory F} (hf : FactoryOK fac) {D : NS → Nat}
    {w : World F} (hw : WorldOK D w) (fuel : Nat) (cfg : Config) (hn : 0 ≤ cfg.accurateN) (p : Nat) :
    ∃ names w' p', (task env fac fuel cfg .distAccurate).run w p = .ok ((.done, w'), p') ∧ WorldOK D w' ∧ HeardNames env w (cfg.loc, names) ∧
      Rounds env cfg.loc cfg.remotes (accurateRound env D cfg.loc cfg.accurateN p p') names w w' := by
  obtain ⟨⟨r, w'⟩, p', h1, h2, h3, names, h4, h5⟩ := Go.wp_iff.1 (wp_withAddrs he cfg (D := D) hw p
    (body := fun ns addrs => Server.distributeAccurate env fac cfg.loc ns cfg.accurateN addrs)
    (R := fun q q' ns addrs w w' => ∃ m, w.get cfg.loc ns = some m ∧
      DistributedAccurate env (env.tk q) (env.tk q') D cfg.loc ns cfg.accurateN addrs m w w')
    (fun ns addrs w p hw hne => by
      obtain ⟨m, hg⟩ := Option.ne_none_iff_exists'.1 hne
      refine Go.wp_mono (wp_distributeAccurate he hr hf hw hg hn addrs p) (fun r p' hr => ⟨hr.1, hr.2.1, fun ns' h => ?_, m, hg, hr.2.2.2⟩)
      exact fun h' => h (((distributed_facts hg (.inr hr.2.2.2)).1 _ _).1 h')))
  dsimp only at h2 h3 h5
  subst h3
  exact ⟨names, w', p', h1, h2, h4, h5⟩

theorem _root_.Trypo.Spec.Rounds.facts {env : Env} {loc : Addr} {remotes : List Addr} {round : NS → List Addr → World F → World F → Prop}
    {names : List NS} {w w' : World F}
    (hround : ∀ ns addrs w w', round ns addrs w w' → (∀ b ns', w'.get b ns' = none ↔ w.get b ns' = none) ∧
      ∀ b ns' x, x ∈ storedAt w' [b] ns' → x ∈ storedAt w [b] ns' ∨ ns' = ns ∧ x ∈ storedAt w [loc] ns)
    (h : Rounds env loc remotes round names w w') : (∀ b ns', w'.get b ns' = none ↔ w.get b ns' = none) ∧
      ∀ b ns' x, x ∈ storedAt w' [b] ns' → x ∈ storedAt w [b] ns' ∨ ns' ∈ names ∧ x ∈ storedAt w [loc] ns' := by
  induction h with
  | nil => exact ⟨fun _ _ => Iff.rfl, fun _ _ _ h => .inl h⟩
  | cons _ _ h _ ih =>
    rcases h with ⟨rfl, _⟩ | h
    · exact ⟨ih.1, fun b ns' x hx => (ih.2 b ns' x hx).imp_right (fun h => ⟨by simp [h.1], h.2⟩)⟩
    · obtain ⟨h1, h2⟩ := hround _ _ _ _ h
      refine ⟨fun b ns' => (ih.1 b ns').trans (h1 b ns'), fun b ns' x hx => ?_⟩
      rcases ih.2 b ns' x hx with h | ⟨hm, h⟩
      · rcases h2 b ns' x h with h | ⟨rfl, h⟩
        · exact .inl h
        · exact .inr ⟨by simp, h⟩
      · refine .inr ⟨by simp [hm], ?_⟩
        rcases h2 loc ns' x h with h | ⟨rfl, h⟩ <;> exact h

/-- **C66** in short: the tasks create no namespace and drop none, and what a node holds afterwards it held before, or the local node
held it in the same namespace. -/
theorem C66_moves {env : Env} (he : EnvOK env) (hr : NoLostReplies env) {fac : Factory F} (hf : FactoryOK fac) {D : NS → Nat}
    {w : World F} (hw : WorldOK D w) (fuel : Nat) (cfg : Config) (hn : 0 ≤ cfg.fastN) (hn' : 0 ≤ cfg.accurateN) (p : Nat) {t : TaskId}
    (ht : t = .distFast ∨ t = .distAccurate) :
    ∃ w' p', (task env fac fuel cfg t).run w p = .ok ((.done, w'), p') ∧ (∀ b ns, w'.get b ns = none ↔ w.get b ns = none) ∧
      ∀ b ns x, x ∈ storedAt w' [b] ns → x ∈ storedAt w [b] ns ∨ x ∈ storedAt w [cfg.loc] ns := by
  have key : ∀ ns addrs (w w' : World F) m q q' n, w.get cfg.loc ns = some m →
      (DistributedFast env (env.tk q) (env.tk q') D cfg.loc ns n addrs m w w' ∨
        DistributedAccurate env (env.tk q) (env.tk q') D cfg.loc ns n addrs m w w') →
      (∀ b ns', w'.get b ns' = none ↔ w.get b ns' = none) ∧
      ∀ b ns' x, x ∈ storedAt w' [b] ns' → x ∈ storedAt w [b] ns' ∨ ns' = ns ∧ x ∈ storedAt w [cfg.loc] ns := by
    intro ns addrs w w' m q q' n hg hd
    obtain ⟨h1, moved, _, h3, h4⟩ := distributed_facts hg hd
    exact ⟨h1, fun b ns' x hx => (h4 b ns' x hx).imp_right (fun h => ⟨h.1, by rw [storedAt_one hg]; exact (h3 x h.2).1⟩)⟩
  rcases ht with rfl | rfl
  · obtain ⟨names, w', p', h1, _, _, h4⟩ := C66_fast he hr hf hw fuel cfg hn p
    obtain ⟨h5, h6⟩ := h4.facts (fun ns addrs w w' ⟨q, q', _, _, _, m, hg, hd⟩ => key ns addrs w w' m q q' _ hg (.inl hd))
    exact ⟨w', p', h1, h5, fun b ns x hx => (h6 b ns x hx).imp_right (fun h => h.2)⟩
  · obtain ⟨names, w', p', h1, _, _, h4⟩ := C66_accurate he hr hf hw fuel cfg hn' p
    obtain ⟨h5, h6⟩ := h4.facts (fun ns addrs w w' ⟨q, q', _, _, _, m, hg, hd⟩ => key ns addrs w w' m q q' _ hg (.inr hd))
    exact ⟨w', p', h1, h5, fun b ns x hx => (h6 b ns x hx).imp_right (fun h => h.2)⟩

open ServerExample JobsExample in
/-- C66: nodes 1 and 2, two datapoints of node 1 in namespace 7 and one in namespace 8 are handed out one by one; `decide` runs it. -/
example : ∃ r p', ((fun r => (r.1, storedAt r.2 [1] 7, storedAt r.2 [2] 7, storedAt r.2 [1] 8)) <$>
      (task env fac 10 { single with remotes := [2] } .distFast).run two) 0 = .ok (r, p') ∧
      r = (.done, [], [dp 0 1, dp 1 0, dp 2 0], []) :=
  exists_of_run (f := id) (by decide +kernel)

open ServerExample JobsExample in
/-- C66: the theorem for this world. -/
example : ∃ names w' p', (task env fac 10 single .distAccurate).run two 0 = .ok ((.done, w'), p') ∧ WorldOK (fun _ => 2) w' ∧
    HeardNames env two (1, names) ∧ Rounds env 1 [1] (accurateRound env (fun _ => 2) 1 10 0 p') names two w' :=
  C66_accurate env_ok (fun _ _ => rfl) fac_ok two_ok 10 single (by decide) 0

/-! ### C67: which tasks run -/

theorem run_each_congr {α β : Type} {f g : β → Prog F α} : ∀ (l : List β), (∀ x ∈ l, ∀ w, (f x).run w = (g x).run w) → ∀ w,
    (Prog.each f l).run w = (Prog.each g l).run w
  | [], _, w => rfl
  | x :: xs, h, w => by
    unfold Prog.each
    simp only [run_bind, h x (by simp), run_each_congr xs (fun y hy => h y (by simp [hy]))]

theorem run_each_map {α β γ : Type} (f : β → Prog F α) (g : γ → β) : ∀ (l : List γ) w,
    (Prog.each f (l.map g)).run w = (Prog.each (fun x => f (g x)) l).run w
  | [], w => rfl
  | x :: xs, w => by
    rw [List.map_cons]
    unfold Prog.each
    simp only [run_bind, run_each_map f g xs]

theorem run_each_append {α β : Type} (f : β → Prog F α) (m : List β) : ∀ (l : List β) w,
    (Prog.each f (l ++ m)).run w = (do let r ← Prog.each f l; let s ← Prog.each f m; pure (r ++ s) : Prog F (List α)).run w
  | [], w => by
    simp only [List.nil_append, Prog.each, run_bind, run_pure, pure_bind]
    exact (bind_pure _).symm
  | x :: xs, w => by
    rw [List.cons_append]
    simp only [Prog.each, run_bind, run_each_append f m xs, bind_assoc, run_pure, pure_bind, List.cons_append]

theorem run_turn (env : Env) (fac : Factory F) (fuel : Nat) (cfg : Config) (skip : SkipConfig) (L : Nat) (t : TaskId)
    (h : skip.interval t ≠ 0) (w : World F) :
    (turn env fac fuel cfg skip ((L % 1001 : Nat) : Int) t).run w =
      (if Spec.turn (skip.interval t) L then task env fac fuel cfg t else pure .skipped : Prog F Report).run w := by
  unfold EventLoop.turn withSkip
  rw [if_neg h, run_bind, run_loc]
  have e : Int.tmod ((L % 1001 : Nat) : Int) (skip.interval t) = 0 ↔ skip.interval t ∣ ((L % 1001 : Nat) : Int) := Int.dvd_iff_tmod_eq_zero.symm
  have hl : (Go.lift (.ok (decide (Int.tmod ((L % 1001 : Nat) : Int) (skip.interval t) = 0))) : Go Bool) =
    pure (Spec.turn (skip.interval t) L) := by
    unfold Spec.turn; rw [decide_eq_decide.2 e]; rfl
  rw [hl, pure_bind, pure_bind]

/-- **C67.** `n` iterations of the event loop, beginning with iteration `L`, do exactly what the tasks do one after another, in the
documented order, each one when the tick of the iteration is a multiple of its interval; the others do nothing. -/
theorem C67_loop (env : Env) (fac : Factory F) (fuel : Nat) (cfg : Config) (skip : SkipConfig) (h : ∀ t, skip.interval t ≠ 0) :
    ∀ (n L : Nat) (w : World F), (loop env fac fuel cfg skip n ((L % 1001 : Nat) : Int)).run w =
      (Prog.each (fun x : Nat × TaskId => if Spec.turn (skip.interval x.2) x.1 then task env fac fuel cfg x.2 else pure .skipped)
        (calls L n)).run w
  | 0, L, w => rfl
  | n + 1, L, w => by
    have e : (if ((L % 1001 : Nat) : Int) + 1 > 1000 then 0 else ((L % 1001 : Nat) : Int) + 1) = (((L + 1) % 1001 : Nat) : Int) := by
      split <;> omega
    have hc : calls L (n + 1) = documented.map (fun t => (L, t)) ++ calls (L + 1) n := by
      unfold calls; rw [List.range'_succ, List.flatMap_cons]
    unfold loop oneIteration
    rw [hc, run_each_append, e]
    simp only [run_bind, run_each_map, C67_loop env fac fuel cfg skip h n (L + 1)]
    rw [run_each_congr _ (fun t _ w => run_turn env fac fuel cfg skip L t (h t) w)]
    rfl

open ServerExample JobsExample in
/-- C67: with intervals 2 (the fast distribution) and 3 (the accurate one), from iteration 1000 on: 1000, 0 (since 1001 is the first after
the wrap), 1. -/
example : (calls 1000 3).filterMap (fun x => if Spec.turn 2 x.1 ∧ x.2 = .distFast ∨ Spec.turn 3 x.1 ∧ x.2 = .distAccurate
    then some x else none) = [(1000, .distFast), (1001, .distFast), (1001, .distAccurate)] := by decide

open ServerExample JobsExample in
/-- C67: the theorem for a loop of two nodes. -/
example : (loop env fac 10 single ⟨20, 10, 4, 8, 3, 3, 3, 7, 1⟩ 5 0).run two =
    (Prog.each (fun x : Nat × TaskId => if Spec.turn ((⟨20, 10, 4, 8, 3, 3, 3, 7, 1⟩ : SkipConfig).interval x.2) x.1
      then task env fac 10 single x.2 else pure .skipped) (calls 0 5)).run two :=
  C67_loop env fac 10 single _ (by intro t; cases t <;> decide) 5 0 two

end Trypo
