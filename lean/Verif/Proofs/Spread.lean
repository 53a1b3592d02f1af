import Verif.Props.Keep
import Verif.Props.Distribute

/-!
Distribution between nodes in float64, for vectors with positive components: datapoints in hand always find a place.
-/

namespace Trypo
open GoFloat Spec F64

namespace Keep

variable {env : Env} {D : NS → Nat} {lo hi : ℝ} {N : Nat} {fac : Factory F64} {nodes : List Addr} {ns : NS}

/-- A datapoint as users put it. -/
structure Fine (lo hi : ℝ) (n : Nat) (d : DataPoint F64) : Prop where
  ranged : Ranged lo hi d.vec
  len : d.vec.length = n
  live : d.expireEnabled = false

/-- The state of a namespace between steps. -/
structure State (D : NS → Nat) (lo hi : ℝ) (N : Nat) (nodes : List Addr) (ns : NS) (p : Nat) (w : World F64) : Prop where
  ok : WorldOK D w
  good : Good lo hi N ns p w
  live : ∀ d ∈ storedAt w nodes ns, d.expireEnabled = false

theorem State.mono (hlh : Range lo hi) (hN : 16 * (N : ℝ) * (N + 2) * hi ≤ 2 ^ 53 * lo) {p q : Nat} {w : World F64}
    (h : State D lo hi N nodes ns p w) (hpq : p ≤ q) : State D lo hi N nodes ns q w :=
  ⟨h.ok, h.good.mono (Positive.life hlh hN knnCos kfnCos) hpq, h.live⟩

/-- All that is stored is fine. -/
theorem State.fine {p : Nat} {w : World F64} (h : State D lo hi N nodes ns p w) {d : DataPoint F64} (hd : d ∈ storedAt w nodes ns) : Fine lo hi (D ns) d := by
  have hlive := h.live d hd
  obtain ⟨a, _, hd⟩ := List.mem_flatMap.1 hd
  cases hg : w.get a ns with
  | none => rw [hg] at hd; cases hd
  | some m =>
    obtain ⟨i, _, hi⟩ := lookup_of_get h.ok hg
    have hmok := h.ok.mok hi
    rw [hg] at hd
    obtain ⟨c, hc, hd⟩ := List.mem_flatMap.1 hd
    exact ⟨((h.good a m hg).all c hc).data d hd, by rw [(hmok.wf.dim c hc).2 d hd, (hmok.wf.dim c hc).1, hmok.len], hlive⟩

/-- A node that has acknowledged a datapoint holds it. -/
theorem acked_perm (hnd : nodes.Nodup) (hlh : Range lo hi) (h0 : D ns ≠ 0) (hD : D ns ≤ 2 ^ 20) {t : Int} {a : Addr} (ha : a ∈ nodes)
    {d : DataPoint F64} (hd : Fine lo hi (D ns) d) {p : Nat} {w w' : World F64} (hs : State D lo hi N nodes ns p w) (h : Acked t D a ns d w w') :
    (∀ x ∈ storedAt w' nodes ns, x.expireEnabled = false) ∧ (p ≤ N → (storedAt w' nodes ns).Perm (d :: storedAt w nodes ns)) := by
  obtain ⟨⟨m', e1, e2⟩, e3⟩ := h
  have hdl : ∀ x ∈ d :: storedAt w [a] ns, x.expireEnabled = false := by
    intro x hx
    rcases List.mem_cons.1 hx with rfl | hx
    · exact hd.live
    · exact hs.live x (storedAt_get ha hx)
  refine ⟨?_, fun hp => ?_⟩
  · intro x hx
    obtain ⟨b, hb, hx⟩ := List.mem_flatMap.1 hx
    by_cases hba : b = a
    · subst hba
      rw [e1] at hx
      have hx : x ∈ stored m' := hx
      rcases e2 with e2 | ⟨e2, _⟩
      · exact hdl x ((Round.conserved_live e2 hdl).subset (by simpa using hx))
      · exact hs.live x (storedAt_get ha (by rw [storedAt_one e2]; exact hx))
    · rw [e3 b ns (.inl hba)] at hx
      exact hs.live x (List.mem_flatMap.2 ⟨b, hb, hx⟩)
  have hnode : (stored m').Perm (d :: storedAt w [a] ns) := by
    rcases e2 with e2 | ⟨e2, e4, e5⟩
    · have h := Round.conserved_live e2 hdl
      rw [List.append_nil] at h
      exact h
    · exfalso
      obtain ⟨i, _, hi⟩ := lookup_of_get hs.ok e2
      have hmok := hs.ok.mok hi
      rcases e5 with e5 | e5
      · have hvne : d.vec ≠ [] := fun h => h0 (by rw [← hd.len, h]; rfl)
        obtain ⟨⟨r, k1, k2⟩, _⟩ := C71_cosine_searches d.vec (m'.centroids.map (fun c => c.vec)) 1 (hd.len.trans_le hD)
          (Positive.moderate hlh (hd.ranged.widen hlh) hvne) (by
            intro v hv hvl
            obtain ⟨c, hc, rfl⟩ := List.mem_map.1 hv
            refine Positive.moderate hlh (((hs.good a m' e2).all c hc).vec hp) ?_
            intro h
            rw [h] at hvl
            exact hvne (List.length_eq_zero_iff.1 hvl.symm))
        have hall : (m'.centroids.map (fun c => c.vec)).countP (fun v => v.length == d.vec.length) = m'.centroids.length := by
          rw [List.countP_eq_length.2]
          · simp
          · intro v hv
            obtain ⟨c, hc, rfl⟩ := List.mem_map.1 hv
            simp [(hmok.wf.dim c hc).1, hmok.len, hd.len]
        have hlen1 := k2.length
        rw [hall] at hlen1
        have hpos : 0 < m'.centroids.length := List.length_pos_iff.2 e4
        have e6 : (Except.ok r : Except Panic (List Nat)) = .ok [] := k1.symm.trans e5
        cases e6
        simp only [List.length_nil] at hlen1
        omega
      · exact e5 hd.len
  obtain ⟨rest, t', hrest⟩ := List.append_of_mem ha
  have hp : nodes.Perm (a :: (rest ++ t')) := by rw [hrest]; exact List.perm_middle
  have hna := List.nodup_cons.1 (hp.nodup_iff.1 hnd)
  refine (storedAt_perm ns hp).trans ?_
  refine List.Perm.trans ?_ ((storedAt_perm (w := w) ns hp).symm.cons _)
  rw [storedAt_cons w', storedAt_cons w, storedAt_one e1,
    storedAt_congr (w := w) (w' := w') (l := rest ++ t') (fun b hb => e3 b ns (.inl (by rintro rfl; exact hna.1 hb)))]
  permc [hnode]

/-- Sending a datapoint to one node after the other. -/
theorem wlp_distributeTo (he : EnvOK env) (hlost : NoLostReplies env) (hf : FactoryOK fac) (hnd : nodes.Nodup) (hlh : Range lo hi)
    (hN : 16 * (N : ℝ) * (N + 2) * hi ≤ 2 ^ 53 * lo) (h0 : D ns ≠ 0) (hD : D ns ≤ 2 ^ 20) {addrs : List Addr} (ha : ∀ a ∈ addrs, a ∈ nodes)
    {d : DataPoint F64} (hd : Fine lo hi (D ns) d) : ∀ (is : List Nat) {p : Nat} {w : World F64}, State D lo hi N nodes ns p w →
    Go.wlp ((Server.distributeTo env fac ns addrs d is).run w) (fun r q => p ≤ q ∧ State D lo hi N nodes ns q r.2 ∧
      (∀ b, w.get b ns ≠ none → r.2.get b ns ≠ none) ∧
      (r.1 = false → r.2 = w) ∧ (r.1 = true → q ≤ N → (storedAt r.2 nodes ns).Perm (d :: storedAt w nodes ns))) p
  | [], p, w, hs => by
    unfold Server.distributeTo
    rw [run_pure]
    exact Go.wlp_pure ⟨Nat.le_refl _, hs, fun _ h => h, fun _ => rfl, by simp⟩
  | i :: is, p, w, hs => by
    unfold Server.distributeTo
    rw [run_bind, run_loc]
    refine Go.wlp_bind (Go.wlp_bind (Go.wlp_idx fun a hix => Go.wlp_pure ?_))
    have hmem := ha a (List.mem_of_getElem? hix)
    show Go.wlp ((Client.addDataPoint env fac a ns d >>= _).run w) _ _
    rw [run_bind]
    have L := Positive.life hlh hN knnCos kfnCos
    refine Go.wlp_bind (Go.wlp_mono (Go.wlp_of_wp (Go.wp_and (wp_client_add he.clock hf hs.ok a ns d p)
      (L.wp_client_add_kept he.clock hf hs.ok a hd.ranged hs.good))) fun r q hr => ?_)
    obtain ⟨⟨r1, r2, r3, r4⟩, _, r5⟩ := hr
    cases hb : r.1 with
    | true =>
      simp only [if_true, run_pure]
      have hA := r3 hb
      have hp := acked_perm hnd hlh h0 hD hmem hd hs hA
      exact Go.wlp_pure ⟨r1, ⟨r2 hd.len, r5, hp.1⟩, fun b h => hA.get_ne_none h, by simp, fun _ hq => hp.2 (r1.trans hq)⟩
    | false =>
      simp only [Bool.false_eq_true, if_false]
      obtain ⟨e, _⟩ := (r4 hb).resolve_right (fun h => h.1 hlost)
      have hs' : State D lo hi N nodes ns q w := hs.mono hlh hN r1
      rw [e]
      exact Go.wlp_mono (wlp_distributeTo he hlost hf hnd hlh hN h0 hD ha hd is hs') fun _ _ hx => ⟨r1.trans hx.1, hx.2⟩

/-- Putting a datapoint back. -/
theorem wlp_putBack (he : EnvOK env) (hnd : nodes.Nodup) (hlh : Range lo hi)
    (hN : 16 * (N : ℝ) * (N + 2) * hi ≤ 2 ^ 53 * lo) (h0 : D ns ≠ 0) (hD : D ns ≤ 2 ^ 20) {a : Addr} (ha : a ∈ nodes)
    {d : DataPoint F64} (hd : Fine lo hi (D ns) d) {p : Nat} {w : World F64} (hs : State D lo hi N nodes ns p w) (hg : w.get a ns ≠ none) :
    Go.wlp ((Server.putBack env a ns d).run w) (fun r q => p ≤ q ∧ State D lo hi N nodes ns q r.2 ∧
      (∀ b, w.get b ns ≠ none → r.2.get b ns ≠ none) ∧ (q ≤ N → (storedAt r.2 nodes ns).Perm (d :: storedAt w nodes ns))) p := by
  have L := Positive.life hlh hN knnCos kfnCos
  obtain ⟨⟨⟨⟩, w'⟩, q, e, r1, r2, r3⟩ := Go.wp_iff.1 (wp_putBack he.clock hs.ok hg hd.len p)
  have hk : Good lo hi N ns q w' := by
    obtain ⟨m, hm⟩ := Option.ne_none_iff_exists'.1 hg
    obtain ⟨i, hl, hix⟩ := lookup_of_get hs.ok hm
    have hw : Go.wlp ((Server.putBack env a ns d).run w) (fun r q => Good lo hi N ns q r.2) p := by
      unfold Server.putBack
      rw [run_bind, run_access_some hl hix, bind_assoc]
      refine Go.wlp_bind (Go.wlp_mono (L.addDataPoint (hs.good a m hm) hd.ranged) fun r q hr => ?_)
      rw [pure_bind, run_pure]
      refine Go.wlp_pure fun b m' hb => ?_
      by_cases hba : b = a
      · subst hba
        rw [get_put_self hl hix] at hb
        cases hb
        exact hr.2
      · rw [get_put_other hs.ok hl hix (.inl hba)] at hb
        exact (hs.good _ _ hb).mono L hr.1
    exact hw _ _ e
  have hp := acked_perm hnd hlh h0 hD ha hd hs r3
  intro r q' e'
  rw [e] at e'
  cases e'
  exact ⟨r1, ⟨r2, hk, hp.1⟩, fun b h => r3.get_ne_none h, fun hq => hp.2 (r1.trans hq)⟩

/-- One datapoint: sent, or put back. -/
theorem wlp_hand (he : EnvOK env) (hlost : NoLostReplies env) (hf : FactoryOK fac) (hnd : nodes.Nodup) (hlh : Range lo hi)
    (hN : 16 * (N : ℝ) * (N + 2) * hi ≤ 2 ^ 53 * lo) (h0 : D ns ≠ 0) (hD : D ns ≤ 2 ^ 20) {a : Addr} (ha : a ∈ nodes)
    {remote : List (Addr × List F64)} (hrem : ∀ q ∈ remote, q.1 ∈ nodes) {d : DataPoint F64} (hd : Fine lo hi (D ns) d) {ds : List (DataPoint F64)}
    {rest : Prog F64 Unit} {p : Nat} {w : World F64} (hs : State D lo hi N nodes ns p w) (hg : w.get a ns ≠ none)
    (hrest : ∀ w1 p1, State D lo hi N nodes ns p1 w1 → w1.get a ns ≠ none → Go.wlp (rest.run w1) (fun r q => p1 ≤ q ∧ State D lo hi N nodes ns q r.2 ∧
      (q ≤ N → (storedAt r.2 nodes ns).Perm (ds ++ storedAt w1 nodes ns))) p1) :
    Go.wlp ((Server.distributeDP env fac ns remote d >>= fun b => if b = true then rest else do Server.putBack env a ns d; rest).run w)
      (fun r q => p ≤ q ∧ State D lo hi N nodes ns q r.2 ∧ (q ≤ N → (storedAt r.2 nodes ns).Perm ((d :: ds) ++ storedAt w nodes ns))) p := by
  rw [run_bind]
  unfold Server.distributeDP
  rw [run_bind, run_loc]
  refine Go.wlp_bind (Go.wlp_bind (Go.wlp_bind (Go.wlp_lift fun is _ => Go.wlp_pure ?_)))
  refine Go.wlp_mono (wlp_distributeTo he hlost hf hnd hlh hN h0 hD (addrs := remote.map (fun q => q.1)) (by
    intro b hb
    obtain ⟨q, hq, rfl⟩ := List.mem_map.1 hb
    exact hrem q hq) hd is hs) fun r q hr => ?_
  obtain ⟨r1, r2, r3, r4, r5⟩ := hr
  cases hb : r.1 with
  | true =>
    simp only [if_true]
    refine Go.wlp_mono (hrest r.2 q r2 (r3 a hg)) fun z q' hz => ⟨r1.trans hz.1, hz.2.1, fun hq => ?_⟩
    have k1 := hz.2.2 hq
    have k2 := r5 hb (hz.1.trans hq)
    permc [k1, k2]
  | false =>
    simp only [Bool.false_eq_true, if_false]
    rw [r4 hb, run_bind]
    rw [r4 hb] at r2
    refine Go.wlp_bind (Go.wlp_mono (wlp_putBack he hnd hlh hN h0 hD ha hd r2 hg) fun y q1 hy => ?_)
    refine Go.wlp_mono (hrest y.2 q1 hy.2.1 (hy.2.2.1 a hg)) fun z q' hz => ⟨r1.trans (hy.1.trans hz.1), hz.2.1, fun hq => ?_⟩
    have k1 := hz.2.2 hq
    have k2 := hy.2.2.2 (hz.1.trans hq)
    permc [k1, k2]

theorem wlp_fastLoop (he : EnvOK env) (hlost : NoLostReplies env) (hf : FactoryOK fac) (hnd : nodes.Nodup) (hlh : Range lo hi)
    (hN : 16 * (N : ℝ) * (N + 2) * hi ≤ 2 ^ 53 * lo) (h0 : D ns ≠ 0) (hD : D ns ≤ 2 ^ 20) {a : Addr} (ha : a ∈ nodes)
    {remote : List (Addr × List F64)} (hrem : ∀ q ∈ remote, q.1 ∈ nodes) : ∀ (ds : List (DataPoint F64)), (∀ d ∈ ds, Fine lo hi (D ns) d) →
    ∀ (w : World F64) (p : Nat), State D lo hi N nodes ns p w → w.get a ns ≠ none →
    Go.wlp ((Server.distributeFastLoop env fac a ns remote ds).run w)
      (fun r q => p ≤ q ∧ State D lo hi N nodes ns q r.2 ∧ (q ≤ N → (storedAt r.2 nodes ns).Perm (ds ++ storedAt w nodes ns))) p
  | [], _, w, p, hs, hg => by
    unfold Server.distributeFastLoop
    rw [run_pure]
    exact Go.wlp_pure ⟨Nat.le_refl _, hs, fun _ => .refl _⟩
  | d :: ds, hd, w, p, hs, hg => by
    unfold Server.distributeFastLoop
    exact wlp_hand he hlost hf hnd hlh hN h0 hD ha hrem (hd d (by simp)) hs hg
      (wlp_fastLoop he hlost hf hnd hlh hN h0 hD ha hrem ds (fun x hx => hd x (by simp [hx])))

/-- The addresses whose vectors are fetched. -/
theorem remote_nodes {remote : List (Addr × List F64)} {answers : List (Addr × Option (List F64))} {addrs : List Addr}
    {f : Addr × Option (List F64) → Bool}
    (h1 : (answers.map (fun q => q.1)).Perm addrs) (h2 : (remote.map (fun q => (q.1, some q.2))).Perm (answers.filter f)) (ha : ∀ a ∈ addrs, a ∈ nodes) : ∀ q ∈ remote, q.1 ∈ nodes := by
  intro q hq
  have h3 := (List.mem_filter.1 (h2.subset (List.mem_map.2 ⟨q, hq, rfl⟩))).1
  exact ha _ (h1.subset (List.mem_map.2 ⟨_, h3, rfl⟩))

theorem wlp_accurateLoop (he : EnvOK env) (hlost : NoLostReplies env) (hf : FactoryOK fac) (hnd : nodes.Nodup) (hlh : Range lo hi)
    (hN : 16 * (N : ℝ) * (N + 2) * hi ≤ 2 ^ 53 * lo) (h0 : D ns ≠ 0) (hD : D ns ≤ 2 ^ 20) {a : Addr} (ha : a ∈ nodes)
    {addrs : List Addr} (has : ∀ b ∈ addrs, b ∈ nodes) : ∀ (ds : List (DataPoint F64)), (∀ d ∈ ds, Fine lo hi (D ns) d) →
    ∀ (w : World F64) (p : Nat), State D lo hi N nodes ns p w → w.get a ns ≠ none →
    Go.wlp ((Server.distributeAccurateLoop env fac a ns addrs ds).run w)
      (fun r q => p ≤ q ∧ State D lo hi N nodes ns q r.2 ∧ (q ≤ N → (storedAt r.2 nodes ns).Perm (ds ++ storedAt w nodes ns))) p
  | [], _, w, p, hs, hg => by
    unfold Server.distributeAccurateLoop
    rw [run_pure]
    exact Go.wlp_pure ⟨Nat.le_refl _, hs, fun _ => .refl _⟩
  | d :: ds, hd, w, p, hs, hg => by
    unfold Server.distributeAccurateLoop
    rw [run_bind]
    refine Go.wlp_bind (Go.wlp_mono (Go.wlp_of_wp (wp_fetchVecs he (R := fun a r => AccurateAnswer env w ns d.vec (a, r))
      (fun b p => wp_nearestVec_heard hs.ok b ns d.vec p) p)) fun r p1 h => ?_)
    obtain ⟨h1, h2, answers, h3, h4, h5⟩ := h
    rw [h2]
    exact Go.wlp_mono (wlp_hand he hlost hf hnd hlh hN h0 hD ha (remote_nodes h3 h5 has) (hd d (by simp)) (hs.mono hlh hN h1) hg
      (wlp_accurateLoop he hlost hf hnd hlh hN h0 hD ha has ds (fun x hx => hd x (by simp [hx])))) fun _ _ hx => ⟨h1.trans hx.1, hx.2⟩

/-- Draining. -/
theorem wlp_takeOut (he : EnvOK env) (hnd : nodes.Nodup) (hlh : Range lo hi)
    (hN : 16 * (N : ℝ) * (N + 2) * hi ≤ 2 ^ 53 * lo) {a : Addr} (ha : a ∈ nodes) {n : Int} (hn : 0 ≤ n) {p : Nat} {w : World F64}
    (hs : State D lo hi N nodes ns p w) (hg : w.get a ns ≠ none) :
    Go.wlp ((Server.drainOrdered env a ns n).run w) (fun r q => p ≤ q ∧ State D lo hi N nodes ns q r.2 ∧ r.2.get a ns ≠ none ∧ ∃ dps, r.1 = some dps ∧
      (∀ d ∈ dps, Fine lo hi (D ns) d) ∧ (dps ++ storedAt r.2 nodes ns).Perm (storedAt w nodes ns)) p := by
  have L := Positive.life hlh hN knnCos kfnCos
  obtain ⟨m, hm⟩ := Option.ne_none_iff_exists'.1 hg
  obtain ⟨i, hl, hix⟩ := lookup_of_get hs.ok hm
  obtain ⟨⟨o, w'⟩, q, e, r1, r2, r3, dps, rfl, r5, r6⟩ := Go.wp_iff.1 (wp_takeOut he hs.ok hm hn p)
  obtain ⟨_, _, ⟨m', g1, g2, _⟩, g3⟩ := r6 q (Nat.le_refl _)
  have hk : Good lo hi N ns q w' := by
    have hw : Go.wlp ((Server.drainOrdered env a ns n).run w) (fun r q => Good lo hi N ns q r.2) p := by
      unfold Server.drainOrdered
      rw [run_access_some hl hix]
      refine Go.wlp_bind ?_
      have h1 : Go.wlp (do let ord ← env.mapOrder; m.drainOrdered env.tk ord n) (fun r q => p ≤ q ∧ Life.Keeps knnCos kfnCos (Positive.Sound knnCos kfnCos lo hi N) q r.2) p := by
        intro r q e
        have e' : m.drainOrdered env.tk (fun l => Env.reorder (env.perm p l.length) l) n (p + 1) = .ok (r, q) := e
        have h2 : Go.wlp (m.drainOrdered env.tk (fun l => Env.reorder (env.perm p l.length) l) n)
            (fun r q => p + 1 ≤ q ∧ Life.Keeps knnCos kfnCos (Positive.Sound knnCos kfnCos lo hi N) q r.2) (p + 1) := by
          unfold Manager.drainOrdered
          refine Go.wlp_bind (Go.wlp_checkMake fun _ => L.drainLoop _ (fun p c n hc => ?_) _ _ _ (p + 1) ((hs.good a m hm).mono L (Nat.le_succ p)))
          exact Go.wlp_mono (L.drainOrdered (prefabs_goodSearch (F := F64)).2.1 he.clock hc n) fun _ _ hx => ⟨hx.1, hx.2.1, trivial⟩
        have := h2 r q e'
        exact ⟨by omega, this.2⟩
      refine Go.wlp_mono h1 fun r q hr => Go.wlp_pure fun b m' hb => ?_
      by_cases hba : b = a
      · subst hba
        rw [get_put_self hl hix] at hb
        cases hb
        exact hr.2
      · rw [get_put_other hs.ok hl hix (.inl hba)] at hb
        exact (hs.good _ _ hb).mono L hr.1
    exact hw _ _ e
  have hperm : (dps ++ storedAt w' nodes ns).Perm (storedAt w nodes ns) := by
    have hnode := Round.conserved_live g2 (fun d hd => hs.live d (storedAt_get ha (by rw [storedAt_one hm]; exact hd)))
    obtain ⟨rest, t', hrest⟩ := List.append_of_mem ha
    have hp : nodes.Perm (a :: (rest ++ t')) := by rw [hrest]; exact List.perm_middle
    have hna := List.nodup_cons.1 (hp.nodup_iff.1 hnd)
    have k1 := storedAt_perm (w := w') ns hp
    have k2 := storedAt_perm (w := w) ns hp
    rw [storedAt_cons, storedAt_one g1,
      storedAt_congr (w := w) (w' := w') (l := rest ++ t') (fun b hb => g3 b ns (.inl (by rintro rfl; exact hna.1 hb)))] at k1
    rw [storedAt_cons, storedAt_one hm] at k2
    permc [hnode, k1, k2]
  intro r q' e'
  rw [e] at e'
  cases e'
  exact ⟨r1, ⟨r2, hk, fun d hd => hs.live d (hperm.subset (List.mem_append_right _ hd))⟩, r3, dps, rfl,
    fun d hd => hs.fine (hperm.subset (List.mem_append_left _ hd)), hperm⟩

/-- Distribution, fast or accurate, by a client. -/
theorem spread_kept (he : EnvOK env) (hlost : NoLostReplies env) (hf : FactoryOK fac) (hnd : nodes.Nodup) (hlh : Range lo hi)
    (hN : 16 * (N : ℝ) * (N + 2) * hi ≤ 2 ^ 53 * lo) (h0 : D ns ≠ 0) (hD : D ns ≤ 2 ^ 20) (accurate : Bool) {a : Addr} (ha : a ∈ nodes)
    {addrs : List Addr} (hne : addrs ≠ []) (has : ∀ b ∈ addrs, b ∈ nodes) {n : Int} (hn : 0 ≤ n) {p : Nat} {w : World F64}
    (hs : State D lo hi N nodes ns p w) :
    ∃ w' p', (if accurate then Client.distributeAccurate env fac a ns addrs n else Client.distributeFast env fac a ns addrs n : Prog F64 Unit).run w p =
        .ok (((), w'), p') ∧ p ≤ p' ∧ State D lo hi N nodes ns p' w' ∧ (p' ≤ N → (storedAt w' nodes ns).Perm (storedAt w nodes ns)) := by
  have serve : ∀ p, State D lo hi N nodes ns p w → ∃ o w' p',
      (if accurate then Server.distributeAccurate env fac a ns n addrs else Server.distributeFast env fac a ns n addrs : Prog F64 (Option Unit)).run w p =
        .ok ((o, w'), p') ∧ p ≤ p' ∧ State D lo hi N nodes ns p' w' ∧ (p' ≤ N → (storedAt w' nodes ns).Perm (storedAt w nodes ns)) := by
    intro p hs
    cases hg : w.get a ns with
    | none =>
      have hl := (get_eq_none_iff hs.ok).1 hg
      refine ⟨none, w, p, ?_, Nat.le_refl _, hs, fun _ => .refl _⟩
      have hc : (Go.checkMake n) p = .ok (⟨⟩, p) := by
        unfold Go.checkMake
        rw [if_neg (by omega)]; rfl
      have hdr : (Server.drainOrdered env a ns n : Prog F64 _).run w p = .ok ((none, w), p) := by
        unfold Server.drainOrdered
        rw [run_access_none hl]; rfl
      cases accurate with
      | true =>
        simp only [if_true]
        unfold Server.distributeAccurate
        refine (run_bind_ok (run_loc_ok hc w)).trans ((run_bind_ok hdr).trans ?_)
        rw [run_pure]; rfl
      | false =>
        simp only [Bool.false_eq_true, if_false]
        unfold Server.distributeFast
        refine (run_bind_ok (run_loc_ok hc w)).trans ((run_bind_ok hdr).trans ?_)
        rw [run_pure]; rfl
    | some m =>
      have hgn : w.get a ns ≠ none := by rw [hg]; simp
      cases accurate with
      | true =>
        obtain ⟨w', p', e, _, _⟩ := C65_accurate he hlost hf hs.ok hg hn addrs p
        have key : Go.wlp ((Server.distributeAccurate env fac a ns n addrs).run w) (fun r q => p ≤ q ∧ State D lo hi N nodes ns q r.2 ∧
            (q ≤ N → (storedAt r.2 nodes ns).Perm (storedAt w nodes ns))) p := by
          unfold Server.distributeAccurate
          rw [run_bind, run_loc]
          refine Go.wlp_bind (Go.wlp_bind (Go.wlp_checkMake fun _ => Go.wlp_pure ?_))
          show Go.wlp ((Server.drainOrdered env a ns n >>= _).run w) _ _
          rw [run_bind]
          refine Go.wlp_bind (Go.wlp_mono (wlp_takeOut he hnd hlh hN ha hn hs hgn) fun r q hr => ?_)
          obtain ⟨r1, r2, r3, dps, r4, r5, r6⟩ := hr
          rw [r4]
          simp only
          split
          · rename_i hor
            have hdps : dps = [] := List.length_eq_zero_iff.1 (hor.resolve_right (fun h => hne (List.length_eq_zero_iff.1 h)))
            subst hdps
            rw [run_pure]
            exact Go.wlp_pure ⟨r1, r2, fun _ => r6⟩
          · rw [run_bind]
            refine Go.wlp_bind (Go.wlp_mono (wlp_accurateLoop he hlost hf hnd hlh hN h0 hD ha has dps r5 r.2 q r2 r3) fun z q' hz => ?_)
            rw [run_pure]
            exact Go.wlp_pure ⟨r1.trans hz.1, hz.2.1, fun hq => (hz.2.2 hq).trans r6⟩
        exact ⟨some (), w', p', e, key _ _ e⟩
      | false =>
        obtain ⟨w', p', e, _, _⟩ := C65_fast he hlost hf hs.ok hg hn addrs p
        have key : Go.wlp ((Server.distributeFast env fac a ns n addrs).run w) (fun r q => p ≤ q ∧ State D lo hi N nodes ns q r.2 ∧
            (q ≤ N → (storedAt r.2 nodes ns).Perm (storedAt w nodes ns))) p := by
          unfold Server.distributeFast
          rw [run_bind, run_loc]
          refine Go.wlp_bind (Go.wlp_bind (Go.wlp_checkMake fun _ => Go.wlp_pure ?_))
          show Go.wlp ((Server.drainOrdered env a ns n >>= _).run w) _ _
          rw [run_bind]
          refine Go.wlp_bind (Go.wlp_mono (wlp_takeOut he hnd hlh hN ha hn hs hgn) fun r q hr => ?_)
          obtain ⟨r1, r2, r3, dps, r4, r5, r6⟩ := hr
          rw [r4]
          simp only
          split
          · rename_i hor
            have hdps : dps = [] := List.length_eq_zero_iff.1 (hor.resolve_right (fun h => hne (List.length_eq_zero_iff.1 h)))
            subst hdps
            rw [run_pure]
            exact Go.wlp_pure ⟨r1, r2, fun _ => r6⟩
          · rw [run_bind]
            refine Go.wlp_bind (Go.wlp_mono (Go.wlp_of_wp (wp_fetchVecs he (R := fun b r' => FastAnswer env r.2 ns (b, r'))
              (fun b p => wp_vec_heard r2.ok b ns p) q)) fun y q1 hy => ?_)
            obtain ⟨e1, e2, answers, e3, e4, e5⟩ := hy
            rw [run_bind, e2]
            refine Go.wlp_bind (Go.wlp_mono (wlp_fastLoop he hlost hf hnd hlh hN h0 hD ha (remote_nodes e3 e5 has) dps r5 r.2 q1 (r2.mono hlh hN e1) r3)
              fun z q' hz => ?_)
            rw [run_pure]
            exact Go.wlp_pure ⟨r1.trans (e1.trans hz.1), hz.2.1, fun hq => (hz.2.2 hq).trans r6⟩
        exact ⟨some (), w', p', e, key _ _ e⟩
  have client : ∀ body : Prog F64 (Option Unit), (∀ p, State D lo hi N nodes ns p w → ∃ o w' p', body.run w p =
        .ok ((o, w'), p') ∧ p ≤ p' ∧ State D lo hi N nodes ns p' w' ∧ (p' ≤ N → (storedAt w' nodes ns).Perm (storedAt w nodes ns))) →
      ∃ w' p', (do let _ ← Client.call env a body; pure () : Prog F64 Unit).run w p = .ok (((), w'), p') ∧ p ≤ p' ∧
        State D lo hi N nodes ns p' w' ∧ (p' ≤ N → (storedAt w' nodes ns).Perm (storedAt w nodes ns)) := by
    intro body hb
    cases hup : env.up p a with
    | false =>
      refine ⟨w, p + 1, ?_, by omega, hs.mono hlh hN (by omega), fun _ => .refl _⟩
      refine (run_bind_ok (call_down hup body)).trans ?_
      rw [run_pure]; rfl
    | true =>
      obtain ⟨o, w', p', e, e1, e2, e3⟩ := hb (p + 1) (hs.mono hlh hN (by omega))
      refine ⟨w', p' + 1, ?_, by omega, e2.mono hlh hN (by omega), fun hp => e3 (by omega)⟩
      refine (run_bind_ok (call_up hup e)).trans ?_
      rw [run_pure]; rfl
  cases accurate with
  | true =>
    simp only [if_true] at serve ⊢
    exact client _ serve
  | false =>
    simp only [Bool.false_eq_true, if_false] at serve ⊢
    exact client _ serve

/-- A datapoint that is sent to one node. -/
theorem direct_kept (he : EnvOK env) (hlost : NoLostReplies env) (hf : FactoryOK fac) (hnd : nodes.Nodup) (hlh : Range lo hi)
    (hN : 16 * (N : ℝ) * (N + 2) * hi ≤ 2 ^ 53 * lo) (h0 : D ns ≠ 0) (hD : D ns ≤ 2 ^ 20) {a : Addr} (ha : a ∈ nodes) (hup : Reachable env a)
    {d : DataPoint F64} (hd : Fine lo hi (D ns) d) {p : Nat} {w : World F64} (hs : State D lo hi N nodes ns p w) :
    ∃ w' p', (Client.addDataPoint env fac a ns d).run w p = .ok ((true, w'), p') ∧ p ≤ p' ∧ State D lo hi N nodes ns p' w' ∧
      (p' ≤ N → (storedAt w' nodes ns).Perm (d :: storedAt w nodes ns)) := by
  obtain ⟨⟨b, w'⟩, p', e, ⟨r1, r2, r3, r4⟩, _, r5⟩ := Go.wp_iff.1 (Go.wp_and (wp_client_add he.clock hf hs.ok a ns d p)
    ((Positive.life hlh hN knnCos kfnCos).wp_client_add_kept he.clock hf hs.ok a hd.ranged hs.good))
  cases b with
  | false =>
    obtain ⟨_, q, h⟩ := (r4 rfl).resolve_right (fun h => h.1 hlost)
    rw [hup.1 q] at h
    cases h
  | true =>
    have hp := acked_perm hnd hlh h0 hD ha hd hs (r3 rfl)
    exact ⟨w', p', e, r1, ⟨r2 hd.len, r5, hp.1⟩, fun hq => hp.2 (r1.trans hq)⟩

end Keep
end Trypo
