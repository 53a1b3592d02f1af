import Verif.Props.Nodes
import Verif.Spec.Core

/-!
# Properties of core/dps and core/api: C45, C46, C48, C49
-/

set_option linter.unusedSectionVars false
set_option linter.unusedVariables false

namespace Trypo
open GoFloat Spec

variable {F : Type} [GoFloat F] [LawfulCmp F]

/-! ### C46: putting a datapoint -/

theorem wp_server_add {env : Env} (hm : MonoClock env.tk) {fac : Factory F} (hf : FactoryOK fac) {D : NS → Nat} {w : World F}
    (hw : WorldOK D w) (a : Addr) (ns : NS) (d : DataPoint F) (p : Nat) :
    Go.wp ((Server.addDataPoint env fac a ns d).run w) (fun r p' => p ≤ p' ∧ r.1 = true ∧ Acked (env.tk p') D a ns d w r.2 ∧
      (d.vec.length = D ns → WorldOK D r.2)) p := by
  unfold Server.addDataPoint
  cases hg : w.get a ns with
  | none =>
    have hl := (get_eq_none_iff hw).1 hg
    rw [run_bind, run_access_none hl, pure_bind]
    show Go.wp ((Prog.loc _ >>= _).run w) _ _
    rw [run_bind, run_loc]
    simp only [bind_assoc, Go.wp_bind, Go.wp_pure]
    refine safe_make hf rfl p (fun m hmok h0 => ?_)
    refine Go.wp_mono (addDataPoint_mok (c := ⟨env, fun _ => d.vec.length, ns, fun _ _ => True, fun _ => True, True, fun _ => True⟩) hm hmok rfl [] p) (fun r p' hr => ?_)
    obtain ⟨h1, h2, X, h3, h4, h5⟩ := hr
    have hX : X = [] := by
      by_contra hx
      exact (h4 hx).1 h0
    rw [hX, show stored m = [] by simp [stored, h0]] at h5
    rw [run_bind, run_addSlot, pure_bind, run_pure, Go.wp_pure]
    refine ⟨h1, rfl, ⟨⟨r.2, get_addSlot _ _ _ _, .inl ?_⟩, fun b ns' hb => ?_⟩, fun hd => hw.addSlot a (by rw [← hd]; exact h2.ok)⟩
    · rw [storedAt_none hg]; simpa using h5
    · rcases Classical.em (ns' = ns) with rfl | h
      · exact get_addSlot_of_lookup hw (lookup_addSlot_node w (hb.resolve_right (by simp)) ns' ns' _)
      · exact get_addSlot_ns hw a b h _
  | some m =>
    obtain ⟨i, hl, hi⟩ := lookup_of_get hw hg
    have hok := hw.mok hi
    rw [run_bind, run_access_some hl hi, bind_assoc, Go.wp_bind]
    refine Go.wp_mono (Go.wp_and (Manager.wp_addDataPoint hm hok.wf d p) (Manager.wp_addDataPoint_refused hm hok.wf d p))
      (fun r p' hr => ?_)
    obtain ⟨⟨h1, h2, h3, h4, h5⟩, h6⟩ := hr
    rw [pure_bind, run_pure, Go.wp_pure]
    refine ⟨h1, rfl, ⟨⟨r.2, get_put_self hl hi, ?_⟩, fun b ns' hb => get_put_other hw hl hi hb⟩, fun hd => hw.put hi ?_⟩
    · rw [storedAt_one hg]
      cases hb : r.1 with
      | true => exact .inl ((h3 hb).eff hm hok.wf).conserved
      | false =>
        rw [h2 hb]
        by_cases hd : Dead (env.tk p') d
        · exact .inl ⟨[d], by permc [List.Perm.refl ([] : List (DataPoint F))], by simpa using hd⟩
        · obtain ⟨h7, h8⟩ := h6 hb hd
          rw [hok.knn, hok.len] at h8
          exact .inr ⟨hg, h7, h8⟩
    · cases hb : r.1 with
      | true => exact (hok.of_eff ((h3 hb).eff hm hok.wf) (by simpa using hd)).ok
      | false => rw [h2 hb]; exact hok.ok

/-- `AddDataPoint` of a client. -/
theorem wp_client_add {env : Env} (hm : MonoClock env.tk) {fac : Factory F} (hf : FactoryOK fac) {D : NS → Nat} {w : World F}
    (hw : WorldOK D w) (a : Addr) (ns : NS) (d : DataPoint F) (p : Nat) :
    Go.wp ((Client.addDataPoint env fac a ns d).run w) (fun r p' => p ≤ p' ∧ (d.vec.length = D ns → WorldOK D r.2) ∧
      (r.1 = true → Acked (env.tk p') D a ns d w r.2) ∧
      (r.1 = false → (r.2 = w ∧ Down env a) ∨ (¬ NoLostReplies env ∧ Acked (env.tk p') D a ns d w r.2))) p := by
  unfold Client.addDataPoint Client.call
  simp only [run_bind, Go.wp_bind, run_loc]
  refine wp_sent ?_
  rw [Go.wp_pure]
  cases hup : env.up p a with
  | false =>
    simp only [Bool.false_eq_true, if_false, run_pure, Go.wp_pure, Option.getD_none]
    exact ⟨by omega, fun _ => hw, fun h => by simp at h, fun _ => .inl ⟨trivial, p, hup⟩⟩
  | true =>
    simp only [if_true, run_bind, Go.wp_bind]
    refine Go.wp_mono (wp_server_add hm hf hw a ns d (p + 1)) (fun r p1 hr => ?_)
    obtain ⟨h1, h2, h3, h4⟩ := hr
    rw [run_pure, Go.wp_pure, run_loc, Go.wp_bind]
    refine wp_arrived ?_
    rw [Go.wp_pure]
    have hmono : ∀ q, p1 ≤ q → Acked (env.tk q) D a ns d w r.2 := fun q hq => by
      obtain ⟨⟨m', e1, e2⟩, e3⟩ := h3
      exact ⟨⟨m', e1, e2.imp (fun h => h.mono hm hq) id⟩, e3⟩
    cases hb : env.back p1 a with
    | false =>
      simp only [Bool.false_eq_true, if_false, run_pure, Go.wp_pure, Option.getD_none]
      exact ⟨by omega, h4, fun h => by simp at h, fun _ => .inr ⟨fun hn => by simp [hn p1 a] at hb, hmono _ (by omega)⟩⟩
    | true =>
      simp only [if_true, run_pure, Go.wp_pure, Option.getD_some, h2]
      exact ⟨by omega, h4, fun _ => hmono _ (by omega), fun h => by simp at h⟩

theorem wp_put {env : Env} (hm : MonoClock env.tk) (hr : NoLostReplies env) {fac : Factory F} (hf : FactoryOK fac) {D : NS → Nat} {w : World F}
    (hw : WorldOK D w) (ns : NS) (d : DataPoint F) : ∀ (as : List Addr) (p : Nat),
    Go.wp ((Dps.putDataPoint env fac ns d as).run w) (fun r p' => p ≤ p' ∧ PutInOrder env (env.tk p') D ns d as w r.2 r.1) p
  | [], p => by
    unfold Dps.putDataPoint
    rw [run_pure, Go.wp_pure]
    exact ⟨Nat.le_refl _, .inl ⟨rfl, rfl, by simp⟩⟩
  | a :: as, p => by
    unfold Dps.putDataPoint
    rw [run_bind, Go.wp_bind]
    refine Go.wp_mono (wp_client_add hm hf hw a ns d p) (fun r p1 h => ?_)
    obtain ⟨h1, _, h3, h4⟩ := h
    cases hb : r.1 with
    | true =>
      simp only [if_true, run_pure, Go.wp_pure]
      exact ⟨h1, .inr ⟨rfl, [], a, as, rfl, by simp, h3 hb⟩⟩
    | false =>
      simp only [Bool.false_eq_true, if_false]
      rcases h4 hb with ⟨h5, h6⟩ | ⟨h5, _⟩
      · rw [h5]
        refine Go.wp_mono (wp_put hm hr hf hw ns d as p1) (fun q p2 hq => ⟨Nat.le_trans h1 hq.1, ?_⟩)
        rcases hq.2 with ⟨e1, e2, e3⟩ | ⟨e1, pre, b, post, e2, e3, e4⟩
        · exact .inl ⟨e1, e2, by simpa using ⟨h6, e3⟩⟩
        · exact .inr ⟨e1, a :: pre, b, post, by rw [e2]; rfl, by simpa using ⟨h6, e3⟩, e4⟩
      · exact absurd hr h5

/-- C46. Putting a datapoint into the first of the listed nodes that can be reached. -/
theorem C46_put {env : Env} (hm : MonoClock env.tk) (hr : NoLostReplies env) {fac : Factory F} (hf : FactoryOK fac) {D : NS → Nat}
    {w : World F} (hw : WorldOK D w) (ns : NS) (d : DataPoint F) (as : List Addr) (p : Nat) :
    ∃ b w' p', (Dps.putDataPoint env fac ns d as).run w p = .ok ((b, w'), p') ∧ PutInOrder env (env.tk p') D ns d as w w' b := by
  obtain ⟨r, p', h0, _, h1⟩ := Go.wp_iff.1 (wp_put hm hr hf hw ns d as p)
  exact ⟨r.1, r.2, p', h0, h1⟩

theorem wp_putRand {env : Env} (he : EnvOK env) (hr : NoLostReplies env) {fac : Factory F} (hf : FactoryOK fac) {D : NS → Nat}
    {w : World F} (hw : WorldOK D w) (ns : NS) (d : DataPoint F) (addrs : List Addr) (p : Nat) :
    Go.wp ((Dps.putDataPointRand env fac addrs ns d).run w) (fun r p' => p ≤ p' ∧ ∃ as, as.Perm addrs ∧
      PutInOrder env (env.tk p') D ns d as w r.2 r.1) p := by
  unfold Dps.putDataPointRand
  rw [run_bind, Go.wp_bind, run_loc, Go.wp_bind]
  unfold Dps.shuffleAddrs
  refine Go.wp_mono (wp_shuffleFrom he addrs.length 0 addrs p rfl (by omega)) (fun as p1 h => ?_)
  rw [Go.wp_pure]
  exact Go.wp_mono (wp_put he.clock hr hf hw ns d as p1) (fun q p2 hq => ⟨Nat.le_trans h.2 hq.1, as, h.1, hq.2⟩)

/-- C46, `PutDataPointRand`: the nodes are tried in some order. -/
theorem C46_putRand {env : Env} (he : EnvOK env) (hr : NoLostReplies env) {fac : Factory F} (hf : FactoryOK fac) {D : NS → Nat}
    {w : World F} (hw : WorldOK D w) (ns : NS) (d : DataPoint F) (addrs : List Addr) (p : Nat) :
    ∃ b w' p' as, (Dps.putDataPointRand env fac addrs ns d).run w p = .ok ((b, w'), p') ∧ as.Perm addrs ∧
      PutInOrder env (env.tk p') D ns d as w w' b := by
  obtain ⟨r, p', h0, _, as, h1, h2⟩ := Go.wp_iff.1 (wp_putRand he hr hf hw ns d addrs p)
  exact ⟨r.1, r.2, p', as, h0, h1, h2⟩

theorem wp_bestFast {env : Env} (he : EnvOK env) {D : NS → Nat} {w : World F} (hw : WorldOK D w) {search : Search F}
    {dist : List F → List F → Option F} {asc : Bool} (hs : SearchesBest search dist asc) (addrs : List Addr) (ns : NS) (v : List F) (p : Nat) :
    Go.wp ((Nodes.bestFitNodesFast env search addrs ns v).run w) (fun r p' => p ≤ p' ∧ r.2 = w ∧
      ∃ answers, (answers.map (fun q => q.1)).Perm addrs ∧ (∀ q ∈ answers, FastAnswer env w ns q) ∧ BestFit (dist v) asc answers r.1) p :=
  wp_bestFitNodes he hs (addrs := addrs) (v := v) (fetch := fun a => Client.vec env a ns) (fun a p => wp_vec_heard hw a ns p) p

theorem wp_bestAccurate {env : Env} (he : EnvOK env) {D : NS → Nat} {w : World F} (hw : WorldOK D w) {search : Search F}
    {dist : List F → List F → Option F} {asc : Bool} (hs : SearchesBest search dist asc) (addrs : List Addr) (ns : NS) (v : List F) (p : Nat) :
    Go.wp ((Nodes.bestFitNodesAccurate env search addrs ns v).run w) (fun r p' => p ≤ p' ∧ r.2 = w ∧
      ∃ answers, (answers.map (fun q => q.1)).Perm addrs ∧ (∀ q ∈ answers, AccurateAnswer env w ns v q) ∧ BestFit (dist v) asc answers r.1) p :=
  wp_bestFitNodes he hs (addrs := addrs) (v := v)
    (fetch := fun a => Client.nearestCentroidVec env a ns v) (w := w) (R := fun a r => AccurateAnswer env w ns v (a, r))
    (fun a p => wp_nearestVec_heard hw a ns v p) p

theorem wp_putFast {env : Env} (he : EnvOK env) (hr : NoLostReplies env) {fac : Factory F} (hf : FactoryOK fac) {D : NS → Nat}
    {w : World F} (hw : WorldOK D w) {search : Search F} {dist : List F → List F → Option F} {asc : Bool} (hs : SearchesBest search dist asc)
    (ns : NS) (d : DataPoint F) (addrs : List Addr) (p : Nat) :
    Go.wp ((Dps.putDataPointFast env fac search addrs ns d).run w) (fun r p' => p ≤ p' ∧ ∃ answers as, (answers.map (fun q => q.1)).Perm addrs ∧
      (∀ q ∈ answers, FastAnswer env w ns q) ∧ BestFit (dist d.vec) asc answers as ∧ PutInOrder env (env.tk p') D ns d as w r.2 r.1) p := by
  unfold Dps.putDataPointFast
  rw [run_bind, Go.wp_bind]
  refine Go.wp_mono (wp_bestFast he hw hs addrs ns d.vec p) (fun r p1 h => ?_)
  obtain ⟨h1, h2, answers, h3, h4, h5⟩ := h
  rw [h2]
  exact Go.wp_mono (wp_put he.clock hr hf hw ns d r.1 p1) (fun q p2 hq => ⟨Nat.le_trans h1 hq.1, answers, r.1, h3, h4, h5, hq.2⟩)

theorem wp_putAccurate {env : Env} (he : EnvOK env) (hr : NoLostReplies env) {fac : Factory F} (hf : FactoryOK fac) {D : NS → Nat}
    {w : World F} (hw : WorldOK D w) {search : Search F} {dist : List F → List F → Option F} {asc : Bool} (hs : SearchesBest search dist asc)
    (ns : NS) (d : DataPoint F) (addrs : List Addr) (p : Nat) :
    Go.wp ((Dps.putDataPointAccurate env fac search addrs ns d).run w) (fun r p' => p ≤ p' ∧ ∃ answers as, (answers.map (fun q => q.1)).Perm addrs ∧
      (∀ q ∈ answers, AccurateAnswer env w ns d.vec q) ∧ BestFit (dist d.vec) asc answers as ∧ PutInOrder env (env.tk p') D ns d as w r.2 r.1) p := by
  unfold Dps.putDataPointAccurate
  rw [run_bind, Go.wp_bind]
  refine Go.wp_mono (wp_bestAccurate he hw hs addrs ns d.vec p) (fun r p1 h => ?_)
  obtain ⟨h1, h2, answers, h3, h4, h5⟩ := h
  rw [h2]
  exact Go.wp_mono (wp_put he.clock hr hf hw ns d r.1 p1) (fun q p2 hq => ⟨Nat.le_trans h1 hq.1, answers, r.1, h3, h4, h5, hq.2⟩)

/-- C46, `PutDataPointFast`: the nodes whose managers are most similar are tried first. -/
theorem C46_putFast {env : Env} (he : EnvOK env) (hr : NoLostReplies env) {fac : Factory F} (hf : FactoryOK fac) {D : NS → Nat}
    {w : World F} (hw : WorldOK D w) {search : Search F} {dist : List F → List F → Option F} {asc : Bool} (hs : SearchesBest search dist asc)
    (ns : NS) (d : DataPoint F) (addrs : List Addr) (p : Nat) :
    ∃ b w' p' answers as, (Dps.putDataPointFast env fac search addrs ns d).run w p = .ok ((b, w'), p') ∧
      (answers.map (fun q => q.1)).Perm addrs ∧ (∀ q ∈ answers, FastAnswer env w ns q) ∧ BestFit (dist d.vec) asc answers as ∧
      PutInOrder env (env.tk p') D ns d as w w' b := by
  obtain ⟨r, p', h0, _, answers, as, h1, h2, h3, h4⟩ := Go.wp_iff.1 (wp_putFast he hr hf hw hs ns d addrs p)
  exact ⟨r.1, r.2, p', answers, as, h0, h1, h2, h3, h4⟩

/-- C46, `PutDataPointAccurate`: the nodes with the most similar centroids are tried first. -/
theorem C46_putAccurate {env : Env} (he : EnvOK env) (hr : NoLostReplies env) {fac : Factory F} (hf : FactoryOK fac) {D : NS → Nat}
    {w : World F} (hw : WorldOK D w) {search : Search F} {dist : List F → List F → Option F} {asc : Bool} (hs : SearchesBest search dist asc)
    (ns : NS) (d : DataPoint F) (addrs : List Addr) (p : Nat) :
    ∃ b w' p' answers as, (Dps.putDataPointAccurate env fac search addrs ns d).run w p = .ok ((b, w'), p') ∧
      (answers.map (fun q => q.1)).Perm addrs ∧ (∀ q ∈ answers, AccurateAnswer env w ns d.vec q) ∧ BestFit (dist d.vec) asc answers as ∧
      PutInOrder env (env.tk p') D ns d as w w' b := by
  obtain ⟨r, p', h0, _, answers, as, h1, h2, h3, h4⟩ := Go.wp_iff.1 (wp_putAccurate he hr hf hw hs ns d addrs p)
  exact ⟨r.1, r.2, p', answers, as, h0, h1, h2, h3, h4⟩

/-! ### C45: getting datapoints -/

theorem mem_of_conserved {t : Int} {l l' out : List (DataPoint F)} (h : Conserved t l l' out) {d : DataPoint F} (hd : d ∈ l') : d ∈ l := by
  obtain ⟨lost, h1, _⟩ := h
  exact h1.subset (by simp [hd])

theorem storedAt_append (w : World F) (l l' : List Addr) (ns : NS) : storedAt w (l ++ l') ns = storedAt w l ns ++ storedAt w l' ns := by
  simp [storedAt]

theorem storedAt_cons (w : World F) (a : Addr) (l : List Addr) (ns : NS) : storedAt w (a :: l) ns = storedAt w [a] ns ++ storedAt w l ns := by
  simp [storedAt]

theorem storedAt_congr {w w' : World F} {l : List Addr} {ns : NS} (h : ∀ a ∈ l, w'.get a ns = w.get a ns) : storedAt w' l ns = storedAt w l ns := by
  unfold storedAt
  refine List.flatMap_congr (fun a ha => ?_)
  rw [h a ha]

/-- A change at one node, seen from a list of nodes. -/
theorem conserved_nodes {t : Int} {w w' : World F} {a : Addr} {ns : NS} {gone : List (DataPoint F)}
    (h : Conserved t (storedAt w [a] ns) (storedAt w' [a] ns) gone) (ho : ∀ b, b ≠ a → w'.get b ns = w.get b ns)
    {nodes : List Addr} (hn : nodes.Nodup) (ha : a ∈ nodes) : Conserved t (storedAt w nodes ns) (storedAt w' nodes ns) gone := by
  obtain ⟨l, l', rfl⟩ := List.append_of_mem ha
  rw [List.nodup_append, List.nodup_cons] at hn
  have e1 : storedAt w' l ns = storedAt w l ns := storedAt_congr (fun b hb => ho b (fun e => hn.2.2 b hb a (by simp) e))
  have e2 : storedAt w' l' ns = storedAt w l' ns := storedAt_congr (fun b hb => ho b (fun e => hn.2.1.1 (e ▸ hb)))
  simp only [storedAt_append, storedAt_cons w a l', storedAt_cons w' a l', e1, e2]
  obtain ⟨lost, h1, h2⟩ := h
  exact ⟨lost, by permc [h1], h2⟩

/-- What one lookup at node `a` does. `gone` is what the node removed on request. -/
structure KnnPost (env : Env) (t0 t : Int) (D : NS → Nat) (a : Addr) (ns : NS) (k : Int) (drain : Bool) (w w' : World F)
    (out : List (DataPoint F)) : Prop where
  ok : WorldOK D w'
  count : (out.length : Int) ≤ k
  found : ∀ d ∈ out, ¬ Dead t0 d ∧ d ∈ storedAt w [a] ns
  others : ∀ b ns', (b ≠ a ∨ ns' ≠ ns) → w'.get b ns' = w.get b ns'
  gone : ∃ gone, Conserved t (storedAt w [a] ns) (storedAt w' [a] ns) gone ∧ (drain = false → gone = []) ∧
    (drain = true → NoLostReplies env → gone = out)

theorem KnnPost.nothing {env : Env} {t0 t : Int} {D : NS → Nat} {a : Addr} {ns : NS} {k : Int} {drain : Bool} {w : World F}
    (hw : WorldOK D w) (hk : 0 ≤ k) : KnnPost env t0 t D a ns k drain w w [] :=
  ⟨hw, by simpa using hk, by simp, fun _ _ _ => rfl, [], .refl _ _, fun _ => rfl, fun _ _ => rfl⟩

theorem wp_server_knn {env : Env} (hm : MonoClock env.tk) {D : NS → Nat} {w : World F}
    (hw : WorldOK D w) (a : Addr) (ns : NS) (v : List F) {k : Int} (hk : 0 ≤ k) (drain : Bool) (p : Nat) :
    Go.wp ((Server.knnLookup env a ns v k drain).run w) (fun r p' => p ≤ p' ∧
      KnnPost env (env.tk p) (env.tk p') D a ns k drain w r.2 (r.1.getD []) ∧
      Conserved (env.tk p') (storedAt w [a] ns) (storedAt r.2 [a] ns) (if drain then r.1.getD [] else [])) p := by
  unfold Server.knnLookup
  cases hg : w.get a ns with
  | none =>
    have hl := (get_eq_none_iff hw).1 hg
    rw [run_access_none hl, Go.wp_pure]
    exact ⟨Nat.le_refl _, .nothing hw hk, by cases drain <;> exact .refl _ _⟩
  | some m =>
    obtain ⟨i, hl, hi⟩ := lookup_of_get hw hg
    have hok := hw.mok hi
    rw [run_access_some hl hi, Go.wp_bind]
    refine Go.wp_mono (Manager.wp_knnLookup hm hok.wf v hk drain p) (fun r p' hr => ?_)
    obtain ⟨is, _, _, _, h4⟩ := hr
    rw [Go.wp_pure]
    have hc : Conserved (env.tk p') (storedAt w [a] ns) (storedAt (w.put i ns r.2) [a] ns) (if drain then r.1 else []) := by
      rw [storedAt_one hg, storedAt_one (get_put_self hl hi)]
      exact h4.eff.conserved
    refine ⟨h4.eff.le, ⟨hw.put hi (hok.of_eff h4.eff (by simp)).ok, by simpa using h4.count, fun d hd => ⟨h4.live d hd, ?_⟩,
      fun b ns' hb => get_put_other hw hl hi hb, _, hc, fun h => by simp [h], fun h _ => by simp [h]⟩, hc⟩
    obtain ⟨rest, h5⟩ := h4.before
    have h6 := h5.subset (List.mem_append_left rest hd)
    rw [List.mem_flatMap] at h6
    obtain ⟨j, _, hj⟩ := h6
    rw [storedAt_one hg]
    unfold Manager.atD at hj
    cases hc : m.centroids[j]? with
    | none => simp [hc] at hj
    | some c =>
      simp only [hc, Option.map_some, Option.getD_some] at hj
      exact List.mem_flatMap.2 ⟨c, List.mem_of_getElem? hc, hj⟩

theorem wp_client_knn {env : Env} (hm : MonoClock env.tk) {D : NS → Nat} {w : World F}
    (hw : WorldOK D w) (a : Addr) (ns : NS) (v : List F) {k : Int} (hk : 0 ≤ k) (drain : Bool) (p : Nat) :
    Go.wp ((Client.knnLookup env a ns v k drain).run w) (fun r p' => p ≤ p' ∧
      KnnPost env (env.tk p) (env.tk p') D a ns k drain w r.2 r.1) p := by
  unfold Client.knnLookup Client.call
  simp only [run_bind, Go.wp_bind, run_loc, Go.wp_checkMake]
  refine ⟨hk, ?_⟩
  rw [Go.wp_pure]
  refine wp_sent ?_
  rw [Go.wp_pure]
  cases hup : env.up p a with
  | false =>
    simp only [Bool.false_eq_true, if_false, run_pure, Go.wp_pure, Option.getD_none]
    exact ⟨by omega, .nothing hw hk⟩
  | true =>
    simp only [if_true, run_bind, Go.wp_bind]
    refine Go.wp_mono (wp_server_knn hm hw a ns v hk drain (p + 1)) (fun r p1 hr => ?_)
    obtain ⟨h1, h2, h3⟩ := hr
    rw [run_loc, Go.wp_bind]
    refine wp_arrived ?_
    rw [Go.wp_pure]
    cases hb : env.back p1 a with
    | false =>
      simp only [Bool.false_eq_true, if_false, run_pure, Go.wp_pure, Option.getD_none]
      exact ⟨by omega, h2.ok, by simpa using hk, by simp, h2.others, _, h3.mono hm (by omega), fun h => by simp [h],
        fun _ hn => by simp [hn p1 a] at hb⟩
    | true =>
      simp only [if_true, run_pure, Go.wp_pure]
      exact ⟨by omega, h2.ok, h2.count, fun d hd => ⟨fun h => (h2.found d hd).1 (h.mono hm (by omega)), (h2.found d hd).2⟩, h2.others, _,
        h3.mono hm (by omega), fun h => by simp [h], fun h _ => by simp [h]⟩

theorem wp_getFrom {env : Env} (hm : MonoClock env.tk) {D : NS → Nat} (ns : NS) (v : List F) (n : Int) (drain : Bool) :
    ∀ (as : List Addr) (w : World F) (res : List (DataPoint F)) (p : Nat), WorldOK D w → (res.length : Int) ≤ n →
    Go.wp ((Dps.getFrom env ns v n drain as res).run w) (fun r p' => p ≤ p' ∧ ∃ out, r.1 = res ++ out ∧
      (as ≠ [] → ¬ (res.length : Int) > n) ∧ GotFrom env (env.tk p) (env.tk p') D ns (n - res.length) drain as w r.2 out) p
  | [], w, res, p, hw, hn => by
    unfold Dps.getFrom
    rw [run_pure, Go.wp_pure]
    refine ⟨Nat.le_refl _, [], by simp, by simp, hw, by simpa using hn, by simp, fun _ _ _ => rfl, fun _ _ _ _ => .refl _ _, fun _ _ _ _ _ => .refl _ _⟩
  | a :: as, w, res, p, hw, hn => by
    unfold Dps.getFrom
    rw [run_bind, Go.wp_bind]
    refine Go.wp_mono (wp_client_knn hm hw a ns v (by omega) drain p) (fun r p1 hr => ?_)
    obtain ⟨h1, h2⟩ := hr
    have hc := h2.count
    obtain ⟨gone, g1, g2, g3⟩ := h2.gone
    by_cases hfull : (((res ++ r.1).length : Nat) : Int) ≥ n
    · rw [if_pos hfull, run_pure, Go.wp_pure]
      refine ⟨h1, r.1, rfl, fun _ => by omega, h2.ok, hc, fun d hd => ⟨(h2.found d hd).1, a, by simp, (h2.found d hd).2⟩,
        fun b ns' hb => h2.others b ns' (hb.imp (fun h e => h (by simp [e])) id), fun hd nodes hnd hall => ?_, fun hd hl nodes hnd hall => ?_⟩
      · rw [g2 hd] at g1
        exact conserved_nodes g1 (fun b hb => h2.others b ns (.inl hb)) hnd (hall a (by simp))
      · rw [g3 hd hl] at g1
        exact conserved_nodes g1 (fun b hb => h2.others b ns (.inl hb)) hnd (hall a (by simp))
    · rw [if_neg hfull]
      refine Go.wp_mono (wp_getFrom hm ns v n drain as r.2 (res ++ r.1) p1 h2.ok (by omega)) (fun q p2 hq => ?_)
      obtain ⟨q1, out, q2, _, q4⟩ := hq
      have hc2 := q4.count
      simp only [List.length_append, Nat.cast_add] at hc2
      refine ⟨Nat.le_trans h1 q1, r.1 ++ out, by rw [q2, List.append_assoc], fun _ => by omega, q4.ok, ?_, fun d hd => ?_,
        fun b ns' hb => (q4.others b ns' (hb.imp (fun h e => h (by simp [e])) id)).trans
          (h2.others b ns' (hb.imp (fun h e => h (by simp [e])) id)), fun hd nodes hnd hall => ?_, fun hd hl nodes hnd hall => ?_⟩
      · simp only [List.length_append, Nat.cast_add]; omega
      · rcases List.mem_append.1 hd with hd | hd
        · exact ⟨(h2.found d hd).1, a, by simp, (h2.found d hd).2⟩
        · obtain ⟨e1, b, e2, e3⟩ := q4.found d hd
          refine ⟨fun h => e1 (h.mono hm h1), b, by simp [e2], ?_⟩
          by_cases hb : b = a
          · subst hb; exact mem_of_conserved g1 e3
          · rwa [storedAt_congr (w := w) (w' := r.2) (l := [b]) (by simpa using h2.others b ns (.inl hb))] at e3
      · rw [g2 hd] at g1
        exact ((conserved_nodes g1 (fun b hb => h2.others b ns (.inl hb)) hnd (hall a (by simp))).mono hm q1).trans
          (q4.kept hd nodes hnd (fun b hb => hall b (by simp [hb])))
      · rw [g3 hd hl] at g1
        exact ((conserved_nodes g1 (fun b hb => h2.others b ns (.inl hb)) hnd (hall a (by simp))).mono hm q1).trans
          (q4.drained hd hl nodes hnd (fun b hb => hall b (by simp [hb])))

theorem wp_get {env : Env} (hm : MonoClock env.tk) {D : NS → Nat} {w : World F} (hw : WorldOK D w) (ns : NS) (v : List F) {n : Int}
    (hn : 0 ≤ n) (drain : Bool) (as : List Addr) (p : Nat) :
    Go.wp ((Dps.getDataPoints env as ns v n drain).run w) (fun r p' => p ≤ p' ∧
      GotFrom env (env.tk p) (env.tk p') D ns n drain as w r.2 r.1) p := by
  unfold Dps.getDataPoints
  simp only [run_bind, Go.wp_bind, run_loc, Go.wp_checkMake]
  refine ⟨hn, ?_⟩
  rw [Go.wp_pure]
  refine Go.wp_mono (wp_getFrom hm ns v n drain as w [] p hw (by simpa using hn)) (fun r p' hr => ?_)
  obtain ⟨h1, out, h2, _, h3⟩ := hr
  rw [List.nil_append] at h2
  rw [h2]
  exact ⟨h1, by simpa using h3⟩

/-- Asking later. -/
theorem Spec.GotFrom.earlier {env : Env} (hm : MonoClock env.tk) {p q : Nat} (h : p ≤ q) {t : Int} {D : NS → Nat} {ns : NS} {n : Int} {drain : Bool}
    {as : List Addr} {w w' : World F} {out : List (DataPoint F)} (hg : GotFrom env (env.tk q) t D ns n drain as w w' out) :
    GotFrom env (env.tk p) t D ns n drain as w w' out :=
  { hg with found := fun d hd => ⟨fun hdead => (hg.found d hd).1 (hdead.mono hm h), (hg.found d hd).2⟩ }

/-- C45, at the nodes in the given order. What is missing: with drain and lost replies, see `C45_refuted`. -/
theorem C45_get_partial {env : Env} (hm : MonoClock env.tk) {D : NS → Nat} {w : World F} (hw : WorldOK D w) (ns : NS) (v : List F) {n : Int}
    (hn : 0 ≤ n) (drain : Bool) (as : List Addr) (p : Nat) :
    ∃ out w' p', (Dps.getDataPoints env as ns v n drain).run w p = .ok ((out, w'), p') ∧
      GotFrom env (env.tk p) (env.tk p') D ns n drain as w w' out := by
  obtain ⟨r, p', h0, _, h1⟩ := Go.wp_iff.1 (wp_get hm hw ns v hn drain as p)
  exact ⟨r.1, r.2, p', h0, h1⟩

/-- C45, `GetDataPointsRand`. -/
theorem C45_getRand_partial {env : Env} (he : EnvOK env) {D : NS → Nat} {w : World F} (hw : WorldOK D w) (ns : NS) (v : List F) {n : Int}
    (hn : 0 ≤ n) (drain : Bool) (addrs : List Addr) (p : Nat) :
    ∃ out w' p' as, (Dps.getDataPointsRand env addrs ns v n drain).run w p = .ok ((out, w'), p') ∧ as.Perm addrs ∧
      GotFrom env (env.tk p) (env.tk p') D ns n drain as w w' out := by
  have key : Go.wp ((Dps.getDataPointsRand env addrs ns v n drain).run w) (fun r p' => ∃ as, as.Perm addrs ∧
      GotFrom env (env.tk p) (env.tk p') D ns n drain as w r.2 r.1) p := by
    unfold Dps.getDataPointsRand
    rw [run_bind, Go.wp_bind, run_loc, Go.wp_bind]
    unfold Dps.shuffleAddrs
    refine Go.wp_mono (wp_shuffleFrom he addrs.length 0 addrs p rfl (by omega)) (fun as p1 h => ?_)
    rw [Go.wp_pure]
    exact Go.wp_mono (wp_get he.clock hw ns v hn drain as p1) (fun q p2 hq => ⟨as, h.1, hq.2.earlier he.clock h.2⟩)
  obtain ⟨r, p', h0, as, h1, h2⟩ := Go.wp_iff.1 key
  exact ⟨r.1, r.2, p', as, h0, h1, h2⟩

theorem wp_getFast {env : Env} (he : EnvOK env) {D : NS → Nat} {w : World F} (hw : WorldOK D w) {search : Search F}
    {dist : List F → List F → Option F} {asc : Bool} (hs : SearchesBest search dist asc) (ns : NS) (v : List F) {n : Int}
    (hn : 0 ≤ n) (drain : Bool) (addrs : List Addr) (p : Nat) :
    Go.wp ((Dps.getDataPointsFast env search addrs ns v n drain).run w) (fun r p' => ∃ answers as, (answers.map (fun q => q.1)).Perm addrs ∧
      (∀ q ∈ answers, FastAnswer env w ns q) ∧ BestFit (dist v) asc answers as ∧
      GotFrom env (env.tk p) (env.tk p') D ns n drain as w r.2 r.1) p := by
  unfold Dps.getDataPointsFast
  rw [run_bind, Go.wp_bind]
  refine Go.wp_mono (wp_bestFast he hw hs addrs ns v p) (fun r p1 h => ?_)
  obtain ⟨h1, h2, answers, h3, h4, h5⟩ := h
  rw [h2]
  exact Go.wp_mono (wp_get he.clock hw ns v hn drain r.1 p1) (fun q p2 hq => ⟨answers, r.1, h3, h4, h5, hq.2.earlier he.clock h1⟩)

theorem wp_getAccurate {env : Env} (he : EnvOK env) {D : NS → Nat} {w : World F} (hw : WorldOK D w) {search : Search F}
    {dist : List F → List F → Option F} {asc : Bool} (hs : SearchesBest search dist asc) (ns : NS) (v : List F) {n : Int}
    (hn : 0 ≤ n) (drain : Bool) (addrs : List Addr) (p : Nat) :
    Go.wp ((Dps.getDataPointsAccurate env search addrs ns v n drain).run w) (fun r p' => ∃ answers as, (answers.map (fun q => q.1)).Perm addrs ∧
      (∀ q ∈ answers, AccurateAnswer env w ns v q) ∧ BestFit (dist v) asc answers as ∧
      GotFrom env (env.tk p) (env.tk p') D ns n drain as w r.2 r.1) p := by
  unfold Dps.getDataPointsAccurate
  rw [run_bind, Go.wp_bind]
  refine Go.wp_mono (wp_bestAccurate he hw hs addrs ns v p) (fun r p1 h => ?_)
  obtain ⟨h1, h2, answers, h3, h4, h5⟩ := h
  rw [h2]
  exact Go.wp_mono (wp_get he.clock hw ns v hn drain r.1 p1) (fun q p2 hq => ⟨answers, r.1, h3, h4, h5, hq.2.earlier he.clock h1⟩)

/-- C45, `GetDataPointsFast`. -/
theorem C45_getFast_partial {env : Env} (he : EnvOK env) {D : NS → Nat} {w : World F} (hw : WorldOK D w) {search : Search F}
    {dist : List F → List F → Option F} {asc : Bool} (hs : SearchesBest search dist asc) (ns : NS) (v : List F) {n : Int}
    (hn : 0 ≤ n) (drain : Bool) (addrs : List Addr) (p : Nat) :
    ∃ out w' p' answers as, (Dps.getDataPointsFast env search addrs ns v n drain).run w p = .ok ((out, w'), p') ∧
      (answers.map (fun q => q.1)).Perm addrs ∧ (∀ q ∈ answers, FastAnswer env w ns q) ∧ BestFit (dist v) asc answers as ∧
      GotFrom env (env.tk p) (env.tk p') D ns n drain as w w' out := by
  obtain ⟨r, p', h0, answers, as, h1⟩ := Go.wp_iff.1 (wp_getFast he hw hs ns v hn drain addrs p)
  exact ⟨r.1, r.2, p', answers, as, h0, h1⟩

/-- C45, `GetDataPointsAccurate`. -/
theorem C45_getAccurate_partial {env : Env} (he : EnvOK env) {D : NS → Nat} {w : World F} (hw : WorldOK D w) {search : Search F}
    {dist : List F → List F → Option F} {asc : Bool} (hs : SearchesBest search dist asc) (ns : NS) (v : List F) {n : Int}
    (hn : 0 ≤ n) (drain : Bool) (addrs : List Addr) (p : Nat) :
    ∃ out w' p' answers as, (Dps.getDataPointsAccurate env search addrs ns v n drain).run w p = .ok ((out, w'), p') ∧
      (answers.map (fun q => q.1)).Perm addrs ∧ (∀ q ∈ answers, AccurateAnswer env w ns v q) ∧ BestFit (dist v) asc answers as ∧
      GotFrom env (env.tk p) (env.tk p') D ns n drain as w w' out := by
  obtain ⟨r, p', h0, answers, as, h1⟩ := Go.wp_iff.1 (wp_getAccurate he hw hs ns v hn drain addrs p)
  exact ⟨r.1, r.2, p', answers, as, h0, h1⟩

theorem bestFit_mem {dist : List F → Option F} {asc : Bool} {addrs : List Addr} {answers : List (Addr × Option (List F))} {as : List Addr}
    (h1 : (answers.map (fun q => q.1)).Perm addrs) (h : BestFit dist asc answers as) : ∀ a ∈ as, a ∈ addrs := by
  obtain ⟨chosen, rfl, h2, _⟩ := h
  intro a ha
  obtain ⟨q, hq, rfl⟩ := List.mem_map.1 ha
  have := h2.subset (List.mem_map.2 ⟨q, hq, rfl⟩)
  exact h1.subset (List.mem_map.2 ⟨_, (List.mem_filter.1 this).1, rfl⟩)

/-- C45, the HTTP query. A body that does not decode changes nothing. -/
theorem C45_query_partial {env : Env} (he : EnvOK env) {D : NS → Nat} {w : World F} (hw : WorldOK D w) (addrs : List Addr)
    (body : Option (Api.QueryOpts F)) (hn : ∀ o, body = some o → 0 ≤ o.n) (p : Nat) :
    ∃ status ans w' p', (Api.queryDataPoint env addrs body).run w p = .ok (((status, ans), w'), p') ∧
      (body = none → status = 400 ∧ ans = [] ∧ w' = w) ∧
      ∀ o, body = some o → status = 200 ∧ ∃ out as, ans = out.map (fun d => ⟨d.vec, d.payload, d.expires, d.expireEnabled⟩) ∧
        (∀ a ∈ as, a ∈ addrs) ∧ GotFrom env (env.tk p) (env.tk p') D o.ns o.n o.drain as w w' out := by
  cases body with
  | none =>
    refine ⟨400, [], w, p, ?_, fun _ => ⟨rfl, rfl, rfl⟩, by simp⟩
    unfold Api.queryDataPoint
    rw [run_pure]; rfl
  | some o =>
    have key : Go.wp ((Api.queryDataPoint env addrs (some o)).run w) (fun r p' => r.1.1 = 200 ∧ ∃ out as,
        r.1.2 = out.map (fun d => ⟨d.vec, d.payload, d.expires, d.expireEnabled⟩) ∧
        (∀ a ∈ as, a ∈ addrs) ∧ GotFrom env (env.tk p) (env.tk p') D o.ns o.n o.drain as w r.2 out) p := by
      unfold Api.queryDataPoint
      simp only [run_bind, Go.wp_bind]
      by_cases ha : o.accurate
      · rw [if_pos ha]
        refine Go.wp_mono (wp_getAccurate he hw knnCos_searchesBest o.ns o.vec (hn o rfl) o.drain addrs p) (fun r p1 h => ?_)
        obtain ⟨answers, as, h1, _, h3, h4⟩ := h
        rw [run_pure, Go.wp_pure]
        exact ⟨rfl, r.1, as, rfl, bestFit_mem h1 h3, h4⟩
      · rw [if_neg ha]
        refine Go.wp_mono (wp_getFast he hw knnCos_searchesBest o.ns o.vec (hn o rfl) o.drain addrs p) (fun r p1 h => ?_)
        obtain ⟨answers, as, h1, _, h3, h4⟩ := h
        rw [run_pure, Go.wp_pure]
        exact ⟨rfl, r.1, as, rfl, bestFit_mem h1 h3, h4⟩
    obtain ⟨r, p', h0, h1⟩ := Go.wp_iff.1 key
    refine ⟨r.1.1, r.1.2, r.2, p', h0, by simp, fun o' ho => ?_⟩
    cases ho
    exact h1

namespace ServerExample

/-- The reply at position 9 is lost. -/
def envLost9 : Env := { env with back := fun p _ => p != 9 }
/-- The answer, and what nodes 1 and 2 hold in namespace 7. -/
def obsG (r : List (DataPoint F64) × World F64) : List (List (DataPoint F64)) := [r.1, storedAt r.2 [1] 7, storedAt r.2 [2] 7]
/-- The status, and what nodes 1 and 2 hold in namespace 7. -/
def obsS (r : Nat × World F64) : Nat × List (List (DataPoint F64)) := (r.1, [storedAt r.2 [1] 7, storedAt r.2 [2] 7])
/-- The success, and what nodes 1 and 2 hold in namespace 7. -/
def obsB (r : Bool × World F64) : Bool × List (DataPoint F64) × List (DataPoint F64) := (r.1, at12 r.2)
/-- A three-dimensional datapoint. -/
def wide : Api.DP F64 := ⟨[.ofInt 1, .ofInt 0, .ofInt 0], [], 0, false⟩

end ServerExample
open ServerExample

/-- C45 fails: a reply is lost, and with it two datapoints that node 1 has already removed. They are not in the answer, and
no node has them. -/
theorem C45_refuted : ∃ r p', (Dps.getDataPointsFast envLost9 knnCos [1, 2] 7 [F64.ofInt 1, .ofInt 1] 2 true).run two 0 = .ok (r, p') ∧
    obsG r = [[dp 0 1], [], []] ∧ storedAt two [1, 2] 7 = [dp 1 0, dp 2 0, dp 0 1] := by
  obtain ⟨r, p', h1, h2⟩ := exists_of_run (f := obsG) (m := (Dps.getDataPointsFast envLost9 knnCos [1, 2] 7 [F64.ofInt 1, .ofInt 1] 2 true).run two)
    (p := 0) (b := [[dp 0 1], [], []]) (by decide +kernel)
  exact ⟨r, p', h1, h2, by decide +kernel⟩

/-- C45: with and without drain, a node order that makes it necessary to ask both, and a number that makes it unnecessary. -/
example : (∃ r p', (Dps.getDataPoints env [1, 2] 7 [F64.ofInt 1, .ofInt 1] 2 true).run two 0 = .ok (r, p') ∧
      obsG r = [[dp 1 0, dp 2 0], [], [dp 0 1]]) ∧
    (∃ r p', (Dps.getDataPoints env [2, 1] 7 [F64.ofInt 1, .ofInt 1] 2 true).run two 0 = .ok (r, p') ∧
      obsG r = [[dp 0 1, dp 1 0], [dp 2 0], []]) ∧
    (∃ r p', (Dps.getDataPoints env [2, 1] 7 [F64.ofInt 1, .ofInt 1] 2 false).run two 0 = .ok (r, p') ∧
      obsG r = [[dp 0 1, dp 1 0], [dp 1 0, dp 2 0], [dp 0 1]]) :=
  ⟨exists_of_run (by decide +kernel), exists_of_run (by decide +kernel), exists_of_run (by decide +kernel)⟩

/-- C45: the theorem for this world. -/
example (v : List F64) : ∃ out w' p' answers as, (Dps.getDataPointsFast env knnCos [1, 2, 3] 7 v 2 true).run two 0 = .ok ((out, w'), p') ∧
    (answers.map (fun q => q.1)).Perm [1, 2, 3] ∧ (∀ q ∈ answers, FastAnswer env two 7 q) ∧ BestFit (cosineSimilarity v) false answers as ∧
    GotFrom env 0 0 (fun _ => 2) 7 2 true as two w' out :=
  C45_getFast_partial env_ok two_ok knnCos_searchesBest 7 v (by decide) true [1, 2, 3] 0

/-- A negative number of datapoints makes `make` panic; in an HTTP handler the server recovers. -/
example : (Api.queryDataPoint env [1, 2] (some ⟨7, true, [F64.ofInt 1, .ofInt 1], -1, true⟩)).run two 0 = .error .makeNeg :=
  error_of_map (by decide +kernel)

/-- C46: node 1 is down, so node 2 gets it; both are down; the better one gets it. -/
example : (∃ r p', (Dps.putDataPoint { env with up := fun _ a => a != 1 } fac 7 (dp 5 0) [1, 2]).run two 0 = .ok (r, p') ∧
      obsB r = (true, [dp 1 0, dp 2 0], [dp 0 1, dp 5 0])) ∧
    (∃ r p', (Dps.putDataPoint { env with up := fun _ _ => false } fac 7 (dp 5 0) [1, 2]).run two 0 = .ok (r, p') ∧
      obsB r = (false, [dp 1 0, dp 2 0], [dp 0 1])) ∧
    (∃ r p', (Dps.putDataPointAccurate env fac knnCos [1, 2] 7 (dp 1 5)).run two 0 = .ok (r, p') ∧
      obsB r = (true, [dp 1 0, dp 2 0], [dp 0 1, dp 1 5])) :=
  ⟨exists_of_run (by decide +kernel), exists_of_run (by decide +kernel),
    exists_of_run (by decide +kernel)⟩

/-- C46: the theorem for this world. -/
example (d : DataPoint F64) : ∃ b w' p', (Dps.putDataPoint env fac 7 d [1, 2, 3]).run two 0 = .ok ((b, w'), p') ∧
    PutInOrder env 0 (fun _ => 2) 7 d [1, 2, 3] two w' b :=
  C46_put env_ok.clock (fun _ _ => rfl) fac_ok two_ok 7 d [1, 2, 3] 0

/-! ### C48: the HTTP put -/

/-- C48. Answered 400 exactly when the body does not decode, and then nothing changes. Answered 200, one of the nodes has
acknowledged the datapoint. Answered 500, no node could be reached, and nothing has changed. What is missing: an
acknowledging node may have refused the datapoint, see `C48_refuted`. -/
theorem C48_partial {env : Env} (he : EnvOK env) (hr : NoLostReplies env) {fac : Factory F} (hf : FactoryOK fac) {D : NS → Nat}
    {w : World F} (hw : WorldOK D w) (addrs : List Addr) (body : Option (Api.PutOpts F)) (p : Nat) :
    ∃ status w' p', (Api.putDataPoint env fac addrs body).run w p = .ok ((status, w'), p') ∧
      (body = none → status = 400 ∧ w' = w) ∧
      ∀ o, body = some o →
        (status = 200 ∧ ∃ a ∈ addrs, Acked (env.tk p') D a o.ns ⟨o.dp.vec, o.dp.payload, o.dp.expires, o.dp.expireEnabled⟩ w w') ∨
        (status = 500 ∧ w' = w ∧ ∀ a ∈ addrs, Down env a) := by
  cases body with
  | none =>
    refine ⟨400, w, p, ?_, fun _ => ⟨rfl, rfl⟩, by simp⟩
    unfold Api.putDataPoint
    rw [run_pure]; rfl
  | some o =>
    let d : DataPoint F := o.dp.toDataPoint
    have fin : ∀ {t : Int} {answers : List (Addr × Option (List F))} {as : List Addr} {dist : List F → Option F} {w' : World F} {b : Bool},
        (answers.map (fun q => q.1)).Perm addrs → BestFit dist false answers as → PutInOrder env t D o.ns d as w w' b →
        (b = false ∧ w' = w) ∨ (b = true ∧ ∃ a ∈ addrs, Acked t D a o.ns d w w') := by
      intro t answers as dist w' b h1 h3 h4
      rcases h4 with ⟨e1, e2, _⟩ | ⟨e1, pre, a, post, e2, _, e4⟩
      · exact .inl ⟨e1, e2⟩
      · exact .inr ⟨e1, a, bestFit_mem h1 h3 a (by simp [e2]), e4⟩
    have key : Go.wp ((Api.putDataPoint env fac addrs (some o)).run w) (fun r p' =>
        (r.1 = 200 ∧ ∃ a ∈ addrs, Acked (env.tk p') D a o.ns d w r.2) ∨ (r.1 = 500 ∧ r.2 = w ∧ ∀ a ∈ addrs, Down env a)) p := by
      unfold Api.putDataPoint
      simp only [run_bind, Go.wp_bind]
      have first : Go.wp ((if o.accurate = true then Dps.putDataPointAccurate env fac knnCos addrs o.ns d
          else Dps.putDataPointFast env fac knnCos addrs o.ns d).run w) (fun r p' => (r.1 = false ∧ r.2 = w) ∨
            (r.1 = true ∧ ∃ a ∈ addrs, Acked (env.tk p') D a o.ns d w r.2)) p := by
        by_cases ha : o.accurate
        · rw [if_pos ha]
          refine Go.wp_mono (wp_putAccurate he hr hf hw knnCos_searchesBest o.ns d addrs p) (fun r p1 h => ?_)
          obtain ⟨_, answers, as, h1, _, h3, h4⟩ := h
          exact fin h1 h3 h4
        · rw [if_neg ha]
          refine Go.wp_mono (wp_putFast he hr hf hw knnCos_searchesBest o.ns d addrs p) (fun r p1 h => ?_)
          obtain ⟨_, answers, as, h1, _, h3, h4⟩ := h
          exact fin h1 h3 h4
      refine Go.wp_mono first (fun r p1 h => ?_)
      rcases h with ⟨h1, h2⟩ | ⟨h1, h2⟩
      · rw [h1, h2, if_neg (by simp)]
        refine Go.wp_mono (wp_putRand he hr hf hw o.ns d addrs p1) (fun q p2 hq => ?_)
        obtain ⟨_, as, h3, h4⟩ := hq
        rw [run_pure, Go.wp_pure]
        rcases h4 with ⟨e1, e2, e3⟩ | ⟨e1, pre, a, post, e2, _, e4⟩
        · exact .inr ⟨by simp [e1], e2, fun a ha => e3 a (h3.symm.subset ha)⟩
        · exact .inl ⟨by simp [e1], a, h3.subset (by simp [e2]), e4⟩
      · rw [h1, if_pos rfl, run_pure, Go.wp_pure, run_pure, Go.wp_pure]
        exact .inl ⟨rfl, h2⟩
    obtain ⟨r, p', h0, h1⟩ := Go.wp_iff.1 key
    refine ⟨r.1, r.2, p', h0, by simp, fun o' ho => ?_⟩
    cases ho
    exact h1

/-- C48 fails: a three-dimensional datapoint is put into a two-dimensional namespace. The answer is 200, no node has it. -/
theorem C48_refuted : ∃ r p', (Api.putDataPoint env fac [1, 2] (some ⟨7, false, wide⟩)).run two 0 = .ok (r, p') ∧
    obsS r = (200, [[dp 1 0, dp 2 0], [dp 0 1]]) :=
  exists_of_run (by decide +kernel)

/-- C48: a good request, a bad body, and no node in reach. -/
example : (∃ r p', (Api.putDataPoint env fac [1, 2] (some ⟨7, true, ⟨[.ofInt 1, .ofInt 3], [], 0, false⟩⟩)).run two 0 = .ok (r, p') ∧
      obsS r = (200, [[dp 1 0, dp 2 0], [dp 0 1, dp 1 3]])) ∧
    (∃ r p', (Api.putDataPoint env fac [1, 2] none).run two 0 = .ok (r, p') ∧ obsS r = (400, [[dp 1 0, dp 2 0], [dp 0 1]])) ∧
    (∃ r p', (Api.putDataPoint { env with up := fun _ _ => false } fac [1, 2] (some ⟨7, true, wide⟩)).run two 0 = .ok (r, p') ∧
      obsS r = (500, [[dp 1 0, dp 2 0], [dp 0 1]])) :=
  ⟨exists_of_run (by decide +kernel), exists_of_run (by decide +kernel), exists_of_run (by decide +kernel)⟩

/-- C48 in exact arithmetic: a vector of the right dimension that does not expire is stored when the answer is 200. -/
theorem C48_exact_partial {env : Env} (he : EnvOK env) (hr : NoLostReplies env) {fac : Factory ℝ} (hf : FactoryOK fac) {D : NS → Nat}
    {w : World ℝ} (hw : WorldOK D w) (addrs : List Addr) (o : Api.PutOpts ℝ) (hd : o.dp.vec.length = D o.ns)
    (hlive : o.dp.expireEnabled = false) (p : Nat) :
    ∃ status w' p', (Api.putDataPoint env fac addrs (some o)).run w p = .ok ((status, w'), p') ∧
      (status = 200 → ∃ a ∈ addrs, ⟨o.dp.vec, o.dp.payload, o.dp.expires, o.dp.expireEnabled⟩ ∈ storedAt w' [a] o.ns) := by
  obtain ⟨status, w', p', h1, _, h3⟩ := C48_partial he hr hf hw addrs (some o) p
  refine ⟨status, w', p', h1, fun hs => ?_⟩
  rcases h3 o rfl with ⟨_, a, ha, ⟨m', e1, e2⟩, _⟩ | ⟨e, _⟩
  · refine ⟨a, ha, ?_⟩
    rw [storedAt_one e1]
    rcases e2 with ⟨lost, c1, c2⟩ | ⟨e2, e3, e4⟩
    · have := c1.symm.subset (List.mem_cons_self ..)
      simp only [List.append_nil, List.mem_append] at this
      exact this.resolve_right (fun h => by have := (c2 _ h).1; simp [hlive] at this)
    · exfalso
      obtain ⟨i, hl, hi⟩ := lookup_of_get hw e2
      have hok := hw.mok hi
      rcases e4 with e4 | e4
      · obtain ⟨j, js, hj⟩ := knnCos_alwaysFinds o.dp.vec (m'.centroids.map (fun c => c.vec)) (by simpa using e3) (by
          intro v hv
          obtain ⟨x, hx, rfl⟩ := List.mem_map.1 hv
          rw [(hok.wf.dim x hx).1, hok.len, hd])
        simp only at e4
        rw [hj] at e4; simp at e4
      · exact e4 hd
  · rw [hs] at e; simp at e

/-! ### C49: conversion -/

/-- C49. Converting to the JSON-facing type and back gives the same datapoint, and the other way round. -/
theorem C49_roundtrip (d : DataPoint F) (e : Api.DP F) :
    (Api.ofDataPoint d).toDataPoint = d ∧ Api.ofDataPoint e.toDataPoint = e := ⟨rfl, rfl⟩

/-- C49. Every field is preserved, for lists in order and length. -/
theorem C49_lossless (l : List (DataPoint F)) : (Api.dataPointsToDPs l).length = l.length ∧
    ∀ (i : Nat) (d : DataPoint F), l[i]? = some d → ∃ e : Api.DP F, (Api.dataPointsToDPs l)[i]? = some e ∧ e.vec = d.vec ∧ e.payload = d.payload ∧
      e.expires = d.expires ∧ e.expireEnabled = d.expireEnabled ∧ e.toDataPoint = d :=
  ⟨by simp [Api.dataPointsToDPs], fun i d h => ⟨Api.ofDataPoint d, by simp [Api.dataPointsToDPs, h], rfl, rfl, rfl, rfl, rfl⟩⟩

example : Api.dataPointsToDPs [dp 1 2, ⟨[.ofInt 3], [7], 9, true⟩] =
    [⟨[.ofInt 1, .ofInt 2], [], 0, false⟩, ⟨[.ofInt 3], [7], 9, true⟩] := rfl

end Trypo
