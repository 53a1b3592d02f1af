import Verif.Proofs.LifeService
import Verif.Props.Round

/-!
# C148: sessions of puts and queries in float64
-/

namespace Trypo
open GoFloat Spec F64

namespace Spec
variable {F : Type} [GoFloat F]

/-- What users of one namespace can ask for. -/
inductive UserCall (F : Type) where
  | put (accurate : Bool) (dp : Api.DP F)
  | query (accurate : Bool) (vec : List F) (n : Int) (drain : Bool)

/-- Its answer: the HTTP status, and the datapoints found by a query. -/
def UserCall.prog (env : Env) (fac : Factory F) (addrs : List Addr) (ns : NS) : UserCall F → Prog F (Nat × List (Api.DP F))
  | .put accurate dp => do
    let s ← Api.putDataPoint env fac addrs (some ⟨ns, accurate, dp⟩)
    pure (s, [])
  | .query accurate vec n drain => Api.queryDataPoint env addrs (some ⟨ns, accurate, vec, n, drain⟩)

/-- All datapoints that were put. -/
def givenIn : List (UserCall F) → List (DataPoint F)
  | .put _ dp :: cs => asDataPoint dp :: givenIn cs
  | .query _ _ _ _ :: cs => givenIn cs
  | [] => []

/-- All datapoints in the answers to draining queries. -/
def takenOut : List (UserCall F) → List (Nat × List (Api.DP F)) → List (DataPoint F)
  | .query _ _ _ true :: cs, r :: rs => r.2.map asDataPoint ++ takenOut cs rs
  | _ :: cs, _ :: rs => takenOut cs rs
  | _, _ => []

/-- Datapoints have `n` components, all between `lo` and `hi`, and do not expire; queries do not ask for a negative number of datapoints. -/
def UserCall.fair (lo hi : ℝ) (n : Nat) : UserCall F64 → Prop
  | .put _ dp => Ranged lo hi dp.vec ∧ dp.vec.length = n ∧ dp.expireEnabled = false
  | .query _ _ k _ => 0 ≤ k

end Spec

namespace Keep

variable {env : Env} {D : NS → Nat} {lo hi : ℝ} {N : Nat}

theorem sees_moderate {v u : List F64} (h : u.length = v.length) (hn : v.length ≤ 2 ^ 20) (hv : Moderate v) (hu : Moderate u) : sees v u = true := by
  obtain ⟨s, h1, h2, _, h4⟩ := C69_cosine_error h.symm hn hv hu
  refine sees_iff.2 ⟨s, h1, comparable_of_small h2 (h4.trans ?_)⟩
  have h5 := (second_le hn).2
  have hu := u_pos
  have hu1 : F64.u ≤ 1 := by rw [u_val]; norm_num
  have h6 : (2 : ℝ) ^ 3 ≤ 2 ^ 1000 := pow_le_pow_right₀ (by norm_num) (by norm_num)
  have h7 : (2 * (v.length : ℝ) + 8) * F64.u = 2 * ((v.length + 2) * F64.u) + 4 * F64.u := by ring
  have h8 : (1 : ℝ) / 2 ^ 32 ≤ 1 := by norm_num
  rw [h7]
  generalize (2 : ℝ) ^ 1000 = B at *
  linarith

/-- All centroids of the namespace are near the means of what they hold. -/
abbrev Good (lo hi : ℝ) (N : Nat) (ns : NS) (p : Nat) (w : World F64) : Prop := Life.Kept (Positive.Sound knnCos kfnCos lo hi N) ns p w

/-- Where no manager exists there is nothing to say. -/
theorem good_none {ns : NS} {p : Nat} {w : World F64} (h : ∀ a, w.get a ns = none) : Good lo hi N ns p w := by
  intro a m hg
  rw [h a] at hg
  cases hg

/-- One put. -/
theorem put_kept (he : EnvOK env) (hlost : NoLostReplies env) {fac : Factory F64} (hf : FactoryOK fac) {w : World F64} (hw : WorldOK D w)
    {addrs : List Addr} (hne : addrs ≠ []) (hnd : addrs.Nodup) (hr : ∀ a ∈ addrs, Reachable env a) (hlh : Range lo hi)
    (hN : 16 * (N : ℝ) * (N + 2) * hi ≤ 2 ^ 53 * lo) (o : Api.PutOpts F64) (hd : Ranged lo hi o.dp.vec) (hlen : o.dp.vec.length = D o.ns)
    (h0 : D o.ns ≠ 0) (hD : D o.ns ≤ 2 ^ 20) (hlive : o.dp.expireEnabled = false) (hl : ∀ d ∈ storedAt w addrs o.ns, d.expireEnabled = false)
    {p : Nat} (hk : Good lo hi N o.ns p w) :
    ∃ w' p', (Api.putDataPoint env fac addrs (some o)).run w p = .ok ((200, w'), p') ∧ p ≤ p' ∧ WorldOK D w' ∧ Good lo hi N o.ns p' w' ∧
      (∀ d ∈ storedAt w' addrs o.ns, d.expireEnabled = false) ∧
      (p ≤ N → (storedAt w' addrs o.ns).Perm (asDataPoint o.dp :: storedAt w addrs o.ns)) := by
  obtain ⟨status, w', p', h1, _, h3⟩ := C48_partial he hlost hf hw addrs (some o) p
  obtain ⟨hle, hok, hk'⟩ : p ≤ p' ∧ WorldOK D w' ∧ Good lo hi N o.ns p' w' := by
    obtain ⟨r, q, e1, e2⟩ := Go.wp_iff.1 ((Positive.life hlh hN knnCos kfnCos).wp_httpPut_kept he hf hw addrs o hd hlen hk)
    rw [h1] at e1
    cases e1
    exact e2
  rcases h3 o rfl with ⟨rfl, a, ha, ⟨m', e1, e2⟩, e3⟩ | ⟨_, _, hdown⟩
  · have hdl : ∀ x ∈ asDataPoint o.dp :: storedAt w [a] o.ns, x.expireEnabled = false := by
      intro x hx
      rcases List.mem_cons.1 hx with rfl | hx
      · exact hlive
      · exact hl x (storedAt_get ha hx)
    have hsub : ∀ d ∈ storedAt w' addrs o.ns, d.expireEnabled = false := by
      intro d hd
      obtain ⟨b, hb, hd⟩ := List.mem_flatMap.1 hd
      by_cases hba : b = a
      · subst hba
        rw [e1] at hd
        have hd : d ∈ stored m' := hd
        rcases e2 with e2 | ⟨e2, _⟩
        · exact hdl d ((Round.conserved_live e2 hdl).subset (by simpa using hd))
        · exact hl d (storedAt_get ha (by rw [storedAt_one e2]; exact hd))
      · rw [e3 b o.ns (.inl hba)] at hd
        exact hl d (List.mem_flatMap.2 ⟨b, hb, hd⟩)
    refine ⟨w', p', h1, hle, hok, hk', hsub, fun hp => ?_⟩
    have hnode : (stored m').Perm (asDataPoint o.dp :: storedAt w [a] o.ns) := by
      rcases e2 with e2 | ⟨e2, e4, e5⟩
      · have h := Round.conserved_live e2 hdl
        rw [List.append_nil] at h
        exact h
      · exfalso
        obtain ⟨i, _, hi⟩ := lookup_of_get hw e2
        have hmok := hw.mok hi
        rcases e5 with e5 | e5
        · have hvne : o.dp.vec ≠ [] := fun h => h0 (by rw [← hlen, h]; rfl)
          obtain ⟨⟨r, k1, k2⟩, _⟩ := C71_cosine_searches o.dp.vec (m'.centroids.map (fun c => c.vec)) 1 (hlen.trans_le hD)
            (Positive.moderate hlh (hd.widen hlh) hvne) (by
              intro v hv hvl
              obtain ⟨c, hc, rfl⟩ := List.mem_map.1 hv
              refine Positive.moderate hlh (((hk a m' e2).all c hc).vec hp) ?_
              intro h
              rw [h] at hvl
              exact hvne (List.length_eq_zero_iff.1 hvl.symm))
          have hall : (m'.centroids.map (fun c => c.vec)).countP (fun v => v.length == o.dp.vec.length) = m'.centroids.length := by
            rw [List.countP_eq_length.2]
            · simp
            · intro v hv
              obtain ⟨c, hc, rfl⟩ := List.mem_map.1 hv
              simp [(hmok.wf.dim c hc).1, hmok.len, hlen]
          have hlen1 := k2.length
          rw [hall] at hlen1
          have hpos : 0 < m'.centroids.length := List.length_pos_iff.2 e4
          have e6 : (Except.ok r : Except Panic (List Nat)) = .ok [] := k1.symm.trans e5
          cases e6
          simp only [List.length_nil] at hlen1
          omega
        · exact e5 hlen
    obtain ⟨rest, hrest⟩ := List.append_of_mem ha
    obtain ⟨t, hrest⟩ := hrest
    have hp : addrs.Perm (a :: (rest ++ t)) := by rw [hrest]; exact List.perm_middle
    have hna := List.nodup_cons.1 (hp.nodup_iff.1 hnd)
    refine (storedAt_perm o.ns hp).trans ?_
    refine List.Perm.trans ?_ ((storedAt_perm (w := w) o.ns hp).symm.cons _)
    rw [storedAt_cons w', storedAt_cons w, storedAt_one e1,
      storedAt_congr (w := w) (w' := w') (l := rest ++ t) (fun b hb => e3 b o.ns (.inl (by rintro rfl; exact hna.1 hb)))]
    permc [hnode]
  · obtain ⟨a, ha⟩ := List.exists_mem_of_ne_nil addrs hne
    obtain ⟨q, hq⟩ := hdown a ha
    rw [(hr a ha).1 q] at hq
    cases hq

/-- One query. -/
theorem query_kept (he : EnvOK env) (hlost : NoLostReplies env) {w : World F64} (hw : WorldOK D w) {addrs : List Addr} (hnd : addrs.Nodup)
    (hlh : Range lo hi) (hN : 16 * (N : ℝ) * (N + 2) * hi ≤ 2 ^ 53 * lo) (o : Api.QueryOpts F64) (hn : 0 ≤ o.n)
    (hl : ∀ d ∈ storedAt w addrs o.ns, d.expireEnabled = false) {p : Nat} (hk : Good lo hi N o.ns p w) :
    ∃ ans w' p', (Api.queryDataPoint env addrs (some o)).run w p = .ok (((200, ans), w'), p') ∧ p ≤ p' ∧ WorldOK D w' ∧ Good lo hi N o.ns p' w' ∧
      (storedAt w' addrs o.ns ++ if o.drain then ans.map asDataPoint else []).Perm (storedAt w addrs o.ns) := by
  obtain ⟨status, ans, w', p', h1, _, h3⟩ := C45_query_partial he hw addrs (some o) (by rintro _ ⟨⟩; exact hn) p
  obtain ⟨hle, hk'⟩ : p ≤ p' ∧ Good lo hi N o.ns p' w' := by
    obtain ⟨r, q, e1, e2⟩ := Go.wp_iff.1 ((Positive.life hlh hN knnCos kfnCos).wp_query_kept he hw addrs o hn hk)
    rw [h1] at e1
    cases e1
    exact e2
  obtain ⟨rfl, out, as, e1, e2, e3⟩ := h3 o rfl
  refine ⟨ans, w', p', h1, hle, e3.ok, hk', ?_⟩
  have hid : ans.map asDataPoint = out := by
    rw [e1, List.map_map, show asDataPoint ∘ (fun d : DataPoint F64 => (⟨d.vec, d.payload, d.expires, d.expireEnabled⟩ : Api.DP F64)) = id from rfl,
      List.map_id]
  cases hd : o.drain with
  | true =>
    rw [if_pos rfl, hid]
    exact Round.conserved_live (e3.drained hd hlost addrs hnd e2) hl
  | false =>
    rw [if_neg (by simp)]
    exact Round.conserved_live (e3.kept hd addrs hnd e2) hl

/-- Sessions. -/
theorem session_kept (he : EnvOK env) (hlost : NoLostReplies env) {fac : Factory F64} (hf : FactoryOK fac)
    {addrs : List Addr} (hne : addrs ≠ []) (hnd : addrs.Nodup) (hr : ∀ a ∈ addrs, Reachable env a) (hlh : Range lo hi)
    (hN : 16 * (N : ℝ) * (N + 2) * hi ≤ 2 ^ 53 * lo) {ns : NS} (h0 : D ns ≠ 0) (hD : D ns ≤ 2 ^ 20) :
    ∀ (cs : List (UserCall F64)) {w : World F64} {p : Nat}, (∀ c ∈ cs, c.fair lo hi (D ns)) → WorldOK D w → Good lo hi N ns p w →
      (∀ d ∈ storedAt w addrs ns, d.expireEnabled = false) →
      ∃ rs w' p', (Prog.each (fun c => c.prog env fac addrs ns) cs).run w p = .ok ((rs, w'), p') ∧ p ≤ p' ∧ WorldOK D w' ∧ Good lo hi N ns p' w' ∧
        (∀ d ∈ storedAt w' addrs ns, d.expireEnabled = false) ∧ rs.length = cs.length ∧ (∀ r ∈ rs, r.1 = 200) ∧
        (p' ≤ N → (storedAt w' addrs ns ++ takenOut cs rs).Perm (storedAt w addrs ns ++ givenIn cs))
  | [], w, p, _, hw, hk, hl => ⟨[], w, p, by unfold Prog.each; rw [run_pure]; rfl, Nat.le_refl _, hw, hk, hl, rfl, by simp, fun _ => by simp [takenOut, givenIn]⟩
  | .put acc dp :: cs, w, p, hc, hw, hk, hl => by
    obtain ⟨f1, f2, f3⟩ := hc _ (List.mem_cons_self ..)
    obtain ⟨w1, p1, e1, e2, e3, e4, e5, e6⟩ := put_kept he hlost hf hw hne hnd hr hlh hN ⟨ns, acc, dp⟩ f1 f2 h0 hD f3 hl hk
    obtain ⟨rs, w2, p2, i1, i2, i3, i4, i5, i6, i7, i8⟩ := session_kept he hlost hf hne hnd hr hlh hN h0 hD cs (fun c h => hc c (by simp [h])) e3 e4 e5
    refine ⟨(200, []) :: rs, w2, p2, ?_, e2.trans i2, i3, i4, i5, by simp [i6], ?_, fun hp => ?_⟩
    · unfold Prog.each
      refine (run_bind_ok (a := (200, [])) (w' := w1) (p' := p1) ?_).trans ((run_bind_ok i1).trans ?_)
      · refine (run_bind_ok e1).trans ?_
        rw [run_pure]; rfl
      · rw [run_pure]; rfl
    · intro r hr
      rcases List.mem_cons.1 hr with rfl | hr
      · rfl
      · exact i7 r hr
    · have k1 := i8 hp
      have k2 := e6 (e2.trans (i2.trans hp))
      have t : takenOut (.put acc dp :: cs) ((200, []) :: rs) = takenOut cs rs := rfl
      have g : givenIn (.put acc dp :: cs) = asDataPoint dp :: givenIn cs := rfl
      rw [t, g]
      permc [k1, k2]
  | .query acc v n dr :: cs, w, p, hc, hw, hk, hl => by
    have f1 : 0 ≤ n := hc _ (List.mem_cons_self ..)
    obtain ⟨ans, w1, p1, e1, e2, e3, e4, e5⟩ := query_kept he hlost hw hnd hlh hN ⟨ns, acc, v, n, dr⟩ f1 hl hk
    obtain ⟨rs, w2, p2, i1, i2, i3, i4, i5, i6, i7, i8⟩ := session_kept he hlost hf hne hnd hr hlh hN h0 hD cs (fun c h => hc c (by simp [h])) e3 e4
      (fun d hd => hl d (e5.subset (List.mem_append_left _ hd)))
    refine ⟨(200, ans) :: rs, w2, p2, ?_, e2.trans i2, i3, i4, i5, by simp [i6], ?_, fun hp => ?_⟩
    · unfold Prog.each
      refine (run_bind_ok e1).trans ((run_bind_ok i1).trans ?_)
      rw [run_pure]; rfl
    · intro r hr
      rcases List.mem_cons.1 hr with rfl | hr
      · rfl
      · exact i7 r hr
    · have k1 := i8 hp
      have g : givenIn (.query acc v n dr :: cs) = givenIn cs := rfl
      rw [g]
      cases dr with
      | true =>
        have t : takenOut (.query acc v n true :: cs) ((200, ans) :: rs) = ans.map asDataPoint ++ takenOut cs rs := rfl
        rw [t]
        simp only [if_true] at e5
        permc [k1, e5]
      | false =>
        have t : takenOut (.query acc v n false :: cs) ((200, ans) :: rs) = takenOut cs rs := rfl
        rw [t]
        simp only [Bool.false_eq_true, if_false, List.append_nil] at e5
        permc [k1, e5]

/-- An accurate query that asks for enough. -/
theorem find_kept (he : EnvOK env) {w : World F64} (hw : WorldOK D w) {addrs : List Addr} (hnd : addrs.Nodup) (hr : ∀ a ∈ addrs, Reachable env a)
    (hlh : Range lo hi) (o : Api.QueryOpts F64) (hacc : o.accurate = true) (h0 : D o.ns ≠ 0) (hD : D o.ns ≤ 2 ^ 20) (hv : Ranged lo hi o.vec)
    (hlen : o.vec.length = D o.ns) (hl : ∀ d ∈ storedAt w addrs o.ns, d.expireEnabled = false) (hn : Enough w addrs o.ns o.n) {p : Nat} (hp : p ≤ N)
    (hk : Good lo hi N o.ns p w) :
    ∃ (out : List (DataPoint F64)) (w' : World F64) (p' : Nat), (Api.queryDataPoint env addrs (some o)).run w p =
        .ok (((200, out.map (fun d => ⟨d.vec, d.payload, d.expires, d.expireEnabled⟩)), w'), p') ∧ out.Perm (storedAt w addrs o.ns) ∧
      (o.drain = true → storedAt w' addrs o.ns = []) := by
  have hvne : o.vec ≠ [] := fun h => h0 (by rw [← hlen, h]; rfl)
  obtain ⟨out, w', p', h1, h2⟩ := C102_query he hw o hvne hnd hr (fun d hd q h => by
    have := h.1
    rw [hl d hd] at this
    cases this) hn p
  have hmod := Positive.moderate hlh (hv.widen hlh) hvne
  have ne : ∀ {u : List F64}, u.length = D o.ns → u ≠ [] := fun h h' => h0 (by rw [← h, h']; rfl)
  have hvis : visibleAt o.vec w addrs o.ns = storedAt w addrs o.ns := by
    unfold visibleAt storedAt
    refine List.flatMap_congr (fun a _ => ?_)
    cases hg : w.get a o.ns with
    | none => rfl
    | some m =>
      obtain ⟨i, _, hi⟩ := lookup_of_get hw hg
      have hok := hw.mok hi
      show visible o.vec m = stored m
      unfold visible stored
      rw [List.filter_eq_self.2 (fun c hc => by
        have e : c.vec.length = D o.ns := by rw [(hok.wf.dim c hc).1, hok.len]
        exact sees_moderate (e.trans hlen.symm) (hlen.trans_le hD) hmod (Positive.moderate hlh (((hk a m hg).all c hc).vec hp) (ne e)))]
      refine List.flatMap_congr (fun c hc => List.filter_eq_self.2 (fun d hd => ?_))
      have e : d.vec.length = D o.ns := by rw [(hok.wf.dim c hc).2 d hd, (hok.wf.dim c hc).1, hok.len]
      exact sees_moderate (e.trans hlen.symm) (hlen.trans_le hD) hmod (Positive.moderate hlh ((((hk a m hg).all c hc).data d hd).widen hlh) (ne e))
  rw [hacc, if_pos rfl, hvis] at h2
  refine ⟨out, w', p', h1, h2.found, fun hd => ?_⟩
  have := h2.rest.length_eq
  rw [hd, if_pos rfl, List.length_append] at this
  exact List.length_eq_zero_iff.1 (by omega)

end Keep

section
variable {env : Env} {D : NS → Nat} {lo hi : ℝ} {N : Nat}

/-- C148: float64, a namespace that is not known yet, nodes that can be reached, and nobody else at work. Users put datapoints that do not expire and
have positive components that are not too different, and query, with or without drain, fast or accurate, in any order. All answers have the
status 200. Nothing is lost and nothing appears twice: what is stored and what was handed over by draining queries is what was put. And an
accurate query that asks for enough finds all that is stored. `N` bounds the number of times that the clock is read. -/
theorem C148_session (he : EnvOK env) (hlost : NoLostReplies env) {fac : Factory F64} (hf : FactoryOK fac) {w : World F64} (hw : WorldOK D w)
    {addrs : List Addr} (hne : addrs ≠ []) (hnd : addrs.Nodup) (hr : ∀ a ∈ addrs, Reachable env a) (hlh : Range lo hi)
    (hN : 16 * (N : ℝ) * (N + 2) * hi ≤ 2 ^ 53 * lo) {ns : NS} (h0 : D ns ≠ 0) (hD : D ns ≤ 2 ^ 20) (hnew : ∀ a, w.get a ns = none)
    (cs : List (UserCall F64)) (hc : ∀ c ∈ cs, c.fair lo hi (D ns)) (p : Nat) :
    ∃ rs w' p', (Prog.each (fun c => c.prog env fac addrs ns) cs).run w p = .ok ((rs, w'), p') ∧ rs.length = cs.length ∧ (∀ r ∈ rs, r.1 = 200) ∧
      (p' ≤ N → (storedAt w' addrs ns ++ takenOut cs rs).Perm (givenIn cs) ∧
        ∃ K, ∀ o : Api.QueryOpts F64, o.ns = ns → o.accurate = true → Ranged lo hi o.vec → o.vec.length = D ns → K ≤ o.n →
          ∃ (out : List (DataPoint F64)) (w'' : World F64) (p'' : Nat), (Api.queryDataPoint env addrs (some o)).run w' p' =
              .ok (((200, out.map (fun d => ⟨d.vec, d.payload, d.expires, d.expireEnabled⟩)), w''), p'') ∧
            out.Perm (storedAt w' addrs ns)) := by
  have hs : storedAt w addrs ns = [] := by simp [storedAt, hnew]
  obtain ⟨rs, w', p', h1, h2, h3, h4, h5, h6, h7, h8⟩ := Keep.session_kept he hlost hf hne hnd hr hlh hN h0 hD cs hc hw (Keep.good_none (p := p) hnew)
    (by rw [hs]; simp)
  refine ⟨rs, w', p', h1, h6, h7, fun hp => ⟨by simpa [hs] using h8 hp, ?_⟩⟩
  obtain ⟨K, hK⟩ := enough_exists w' addrs ns
  refine ⟨K, fun o i1 i2 i3 i4 i5 => ?_⟩
  subst i1
  obtain ⟨out, w'', p'', j1, j2, _⟩ := Keep.find_kept he h3 hnd hr hlh o i2 h0 hD i3 i4 h5 (hK o.n i5) hp h4
  exact ⟨out, w'', p'', j1, j2⟩

/-- C147 in part, in float64, through the API: after any such session, an accurate draining query that asks for enough hands over all that is stored and
leaves nothing. All of it is put back, in any order, fast or accurate. The answers have the status 200, and what is stored is as before. -/
theorem C147_service_partial (he : EnvOK env) (hlost : NoLostReplies env) {fac : Factory F64} (hf : FactoryOK fac) {w : World F64} (hw : WorldOK D w)
    {addrs : List Addr} (hne : addrs ≠ []) (hnd : addrs.Nodup) (hr : ∀ a ∈ addrs, Reachable env a) (hlh : Range lo hi)
    (hN : 16 * (N : ℝ) * (N + 2) * hi ≤ 2 ^ 53 * lo) {ns : NS} (h0 : D ns ≠ 0) (hD : D ns ≤ 2 ^ 20) (hnew : ∀ a, w.get a ns = none)
    (cs : List (UserCall F64)) (hc : ∀ c ∈ cs, c.fair lo hi (D ns)) (p : Nat) :
    ∃ rs w1 p1, (Prog.each (fun c => c.prog env fac addrs ns) cs).run w p = .ok ((rs, w1), p1) ∧ (p1 ≤ N →
      ∃ K, ∀ o : Api.QueryOpts F64, o.ns = ns → o.accurate = true → o.drain = true → Ranged lo hi o.vec → o.vec.length = D ns → K ≤ o.n →
        ∃ body w2 p2, (Api.queryDataPoint env addrs (some o)).run w1 p1 = .ok (((200, body), w2), p2) ∧ storedAt w2 addrs ns = [] ∧
          ∀ os : List (Bool × Api.DP F64), (os.map (fun x => x.2)).Perm body →
            ∃ rs' w3 p3, (Prog.each (fun (c : UserCall F64) => c.prog env fac addrs ns) (os.map (fun x => UserCall.put x.1 x.2))).run w2 p2 = .ok ((rs', w3), p3) ∧
              (∀ r ∈ rs', r.1 = 200) ∧ (p3 ≤ N → (storedAt w3 addrs ns).Perm (storedAt w1 addrs ns))) := by
  have hs : storedAt w addrs ns = [] := by simp [storedAt, hnew]
  obtain ⟨rs, w1, p1, h1, h2, h3, h4, h5, h6, h7, h8⟩ := Keep.session_kept he hlost hf hne hnd hr hlh hN h0 hD cs hc hw (Keep.good_none (p := p) hnew)
    (by rw [hs]; simp)
  refine ⟨rs, w1, p1, h1, fun hp => ?_⟩
  obtain ⟨K, hK⟩ := enough_exists w1 addrs ns
  refine ⟨K, fun o i1 i2 idr i3 i4 i5 => ?_⟩
  subst i1
  have hE := hK o.n i5
  obtain ⟨out, w2, p2, j1, j2, j3⟩ := Keep.find_kept he h3 hnd hr hlh o i2 h0 hD i3 i4 h5 hE hp h4
  obtain ⟨_, _, _, k1, k2, k3, k4, _⟩ := Keep.query_kept he hlost h3 hnd hlh hN o hE.1 h5 h4
  rw [j1] at k1
  cases k1
  have he2 := j3 idr
  refine ⟨_, w2, p2, j1, he2, fun os hos => ?_⟩
  have hfair : ∀ c ∈ os.map (fun x => (UserCall.put x.1 x.2 : UserCall F64)), c.fair lo hi (D o.ns) := by
    intro c hc
    obtain ⟨x, hx, rfl⟩ := List.mem_map.1 hc
    obtain ⟨d, hd, e⟩ := List.mem_map.1 (hos.subset (List.mem_map.2 ⟨x, hx, rfl⟩))
    have hd := j2.subset hd
    have hlive := h5 d hd
    obtain ⟨a, _, hd⟩ := List.mem_flatMap.1 hd
    cases hg : w1.get a o.ns with
    | none => simp [hg] at hd
    | some m =>
      obtain ⟨i, _, hi⟩ := lookup_of_get h3 hg
      have hmok := h3.mok hi
      rw [hg] at hd
      obtain ⟨c, hc, hd⟩ := List.mem_flatMap.1 hd
      refine ⟨?_, ?_, ?_⟩
      · rw [← e]; exact ((h4 a m hg).all c hc).data d hd
      · rw [← e]
        show d.vec.length = _
        rw [(hmok.wf.dim c hc).2 d hd, (hmok.wf.dim c hc).1, hmok.len]
      · rw [← e]; exact hlive
  obtain ⟨rs', w3, p3, l1, _, _, _, _, _, l7, l8⟩ := Keep.session_kept he hlost hf hne hnd hr hlh hN h0 hD _ hfair k3 k4 (by rw [he2]; simp)
  refine ⟨rs', w3, p3, l1, l7, fun hp3 => ?_⟩
  have t : ∀ (os : List (Bool × Api.DP F64)) rs, takenOut (os.map (fun x => (UserCall.put x.1 x.2 : UserCall F64))) rs = [] := by
    intro os
    induction os with
    | nil => intro rs; cases rs <;> rfl
    | cons x os ih =>
      intro rs
      cases rs with
      | nil => rfl
      | cons r rs => exact ih rs
  have g : ∀ os : List (Bool × Api.DP F64), givenIn (os.map (fun x => (UserCall.put x.1 x.2 : UserCall F64))) = (os.map (fun x => x.2)).map asDataPoint := by
    intro os
    induction os with
    | nil => rfl
    | cons x os ih => exact congrArg _ ih
  have hfin := l8 hp3
  rw [t, g, he2, List.append_nil, List.nil_append] at hfin
  refine hfin.trans ((hos.map asDataPoint).trans ?_)
  rw [List.map_map, show asDataPoint ∘ (fun d : DataPoint F64 => (⟨d.vec, d.payload, d.expires, d.expireEnabled⟩ : Api.DP F64)) = id from rfl, List.map_id]
  exact j2

end

namespace KeepExample
open ServerExample PositiveExample

/-- A put of two small natural numbers. -/
def put (accurate : Bool) (x y : Nat) : UserCall F64 := .put accurate ⟨FloatExample.nats [x, y], [], 0, false⟩

/-- Puts, a query, a draining query, and another put. -/
def visit : List (UserCall F64) := [put true 1 2, put false 9 1, put true 3 3, .query true (FloatExample.nats [1, 1]) 2 false,
  .query false (FloatExample.nats [1, 1]) 2 true, put false 5 5]

theorem visit_fair : ∀ c ∈ visit, c.fair (1 : Nat) (9 : Nat) 2 := by
  intro c hc
  simp only [visit, List.mem_cons, List.not_mem_nil, or_false] at hc
  rcases hc with rfl | rfl | rfl | rfl | rfl | rfl
  · exact ⟨ranged_nats (by simp) (by norm_num), by simp [FloatExample.nats], rfl⟩
  · exact ⟨ranged_nats (by simp) (by norm_num), by simp [FloatExample.nats], rfl⟩
  · exact ⟨ranged_nats (by simp) (by norm_num), by simp [FloatExample.nats], rfl⟩
  · exact (by decide : (0 : Int) ≤ 2)
  · exact (by decide : (0 : Int) ≤ 2)
  · exact ⟨ranged_nats (by simp) (by norm_num), by simp [FloatExample.nats], rfl⟩

/-- The answers, and what nodes 1 and 2 store. -/
def obsV (r : List (Nat × List (Api.DP F64)) × World F64) : List (Nat × List (List F64)) × List (DataPoint F64) × List (DataPoint F64) :=
  (r.1.map (fun x => (x.1, x.2.map (fun d => d.vec))), at12 r.2)

end KeepExample
open KeepExample ServerExample PositiveExample

set_option synthInstance.maxSize 1000 in
/-- C148: the visit. Three datapoints are put, two are taken out again, one more is put. -/
example : ∃ r p, (Prog.each (fun c => c.prog env fac [1, 2] 7) visit).run start 0 = .ok (r, p) ∧
    obsV r = ([(200, []), (200, []), (200, []), (200, [FloatExample.nats [3, 3], FloatExample.nats [1, 2]]),
      (200, [FloatExample.nats [3, 3], FloatExample.nats [1, 2]]), (200, [])], [], [pt 9 1, pt 5 5]) :=
  exists_of_run (f := obsV) (by decide +kernel)

/-- C148: the theorem, for the visit. -/
example : ∃ rs w' p', (Prog.each (fun c => c.prog env fac [1, 2] 7) visit).run start 0 = .ok ((rs, w'), p') ∧ rs.length = visit.length ∧
    (∀ r ∈ rs, r.1 = 200) ∧ (p' ≤ 1000000 → (storedAt w' [1, 2] 7 ++ takenOut visit rs).Perm (givenIn visit) ∧
      ∃ K, ∀ o : Api.QueryOpts F64, o.ns = 7 → o.accurate = true → Ranged (1 : Nat) (9 : Nat) o.vec → o.vec.length = 2 → K ≤ o.n →
        ∃ (out : List (DataPoint F64)) (w'' : World F64) (p'' : Nat), (Api.queryDataPoint env [1, 2] (some o)).run w' p' =
            .ok (((200, out.map (fun d => ⟨d.vec, d.payload, d.expires, d.expireEnabled⟩)), w''), p'') ∧
          out.Perm (storedAt w' [1, 2] 7)) :=
  C148_session (D := fun _ => 2) (N := 1000000) env_ok (fun _ _ => rfl) ⟨by decide, rfl, rfl⟩ ⟨by simp [start], by simp [start], by simp [start], by simp [start]⟩
    (by simp) (by simp) (fun a _ => ⟨fun _ => rfl, fun _ => rfl⟩) (range_nat (a := 1) (b := 9) (by omega) (by omega) (by norm_num)) (by norm_num)
    (by simp) (by norm_num) (fun a => rfl) visit visit_fair 0

/-- C147: the theorem, after the visit. -/
example : ∃ rs w1 p1, (Prog.each (fun c => c.prog env fac [1, 2] 7) visit).run start 0 = .ok ((rs, w1), p1) ∧ (p1 ≤ 1000000 →
    ∃ K, ∀ o : Api.QueryOpts F64, o.ns = 7 → o.accurate = true → o.drain = true → Ranged (1 : Nat) (9 : Nat) o.vec → o.vec.length = 2 → K ≤ o.n →
      ∃ body w2 p2, (Api.queryDataPoint env [1, 2] (some o)).run w1 p1 = .ok (((200, body), w2), p2) ∧ storedAt w2 [1, 2] 7 = [] ∧
        ∀ os : List (Bool × Api.DP F64), (os.map (fun x => x.2)).Perm body →
          ∃ rs' w3 p3, (Prog.each (fun (c : UserCall F64) => c.prog env fac [1, 2] 7) (os.map (fun x => UserCall.put x.1 x.2))).run w2 p2 =
              .ok ((rs', w3), p3) ∧
            (∀ r ∈ rs', r.1 = 200) ∧ (p3 ≤ 1000000 → (storedAt w3 [1, 2] 7).Perm (storedAt w1 [1, 2] 7))) :=
  C147_service_partial (D := fun _ => 2) (N := 1000000) env_ok (fun _ _ => rfl) ⟨by decide, rfl, rfl⟩
    ⟨by simp [start], by simp [start], by simp [start], by simp [start]⟩
    (by simp) (by simp) (fun a _ => ⟨fun _ => rfl, fun _ => rfl⟩) (range_nat (a := 1) (b := 9) (by omega) (by omega) (by norm_num)) (by norm_num)
    (by simp) (by norm_num) (fun a => rfl) visit visit_fair 0

end Trypo
