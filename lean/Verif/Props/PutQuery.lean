import Verif.Props.Complete
import Verif.Props.Distribute

/-!
# C103: what was put is found
-/

set_option linter.unusedSectionVars false
set_option linter.unusedVariables false

namespace Trypo
open GoFloat Spec

section
variable {F : Type} [GoFloat F] [LawfulCmp F]

namespace Spec

/-- Putting datapoints into `ns` one after the other, each time waiting for the answer: the HTTP statuses. The first component of an entry
is the `accurate` flag of the request. -/
def putAll (env : Env) (fac : Factory F) (addrs : List Addr) (ns : NS) : List (Bool × Api.DP F) → Prog F (List Nat)
  | [] => pure []
  | o :: os => do
    let s ← Api.putDataPoint env fac addrs (some ⟨ns, o.1, o.2⟩)
    let ss ← putAll env fac addrs ns os
    pure (s :: ss)

/-- The datapoint in a request. -/
def asDataPoint (e : Api.DP F) : DataPoint F := ⟨e.vec, e.payload, e.expires, e.expireEnabled⟩

end Spec

/-- The HTTP put keeps the world in order. -/
theorem wp_httpPut_ok {env : Env} (he : EnvOK env) {fac : Factory F} (hf : FactoryOK fac) {D : NS → Nat} {w : World F} (hw : WorldOK D w)
    (addrs : List Addr) (o : Api.PutOpts F) (hd : o.dp.vec.length = D o.ns) (p : Nat) :
    Go.wp ((Api.putDataPoint env fac addrs (some o)).run w) (fun r _ => WorldOK D r.2) p := by
  have hd' : o.dp.toDataPoint.vec.length = D o.ns := hd
  unfold Api.putDataPoint
  simp only [run_bind, Go.wp_bind]
  have first : Go.wp ((if o.accurate then Dps.putDataPointAccurate env fac knnCos addrs o.ns o.dp.toDataPoint
      else Dps.putDataPointFast env fac knnCos addrs o.ns o.dp.toDataPoint : Prog F Bool).run w) (fun r _ => WorldOK D r.2) p := by
    cases o.accurate with
    | true =>
      simp only [if_true]
      unfold Dps.putDataPointAccurate
      rw [run_bind, Go.wp_bind]
      refine Go.wp_mono (wp_bestAccurate he hw knnCos_searchesBest addrs o.ns _ p) (fun r p1 h => ?_)
      rw [h.2.1]
      exact wp_put_ok he.clock hf o.ns _ hd' r.1 w p1 hw
    | false =>
      simp only [Bool.false_eq_true, if_false]
      unfold Dps.putDataPointFast
      rw [run_bind, Go.wp_bind]
      refine Go.wp_mono (wp_bestFast he hw knnCos_searchesBest addrs o.ns _ p) (fun r p1 h => ?_)
      rw [h.2.1]
      exact wp_put_ok he.clock hf o.ns _ hd' r.1 w p1 hw
  refine Go.wp_mono first (fun r p1 h => ?_)
  have second : Go.wp ((if r.1 then pure true else Dps.putDataPointRand env fac addrs o.ns o.dp.toDataPoint : Prog F Bool).run r.2)
      (fun r _ => WorldOK D r.2) p1 := by
    cases r.1 with
    | true => simp only [if_true, run_pure, Go.wp_pure]; exact h
    | false =>
      simp only [Bool.false_eq_true, if_false]
      unfold Dps.putDataPointRand
      rw [run_bind, Go.wp_bind, run_loc, Go.wp_bind]
      unfold Dps.shuffleAddrs
      refine Go.wp_mono (wp_shuffleFrom he addrs.length 0 addrs p1 rfl (by omega)) (fun as p2 _ => ?_)
      rw [Go.wp_pure]
      exact wp_put_ok he.clock hf o.ns _ hd' as r.2 p2 h
  refine Go.wp_mono second (fun q p2 hq => ?_)
  rw [run_pure, Go.wp_pure]
  exact hq

end

section
variable {env : Env} {D : NS → Nat}

/-- One put, in exact arithmetic. -/
theorem put_adds (he : EnvOK env) (hlost : NoLostReplies env) {fac : Factory ℝ} (hf : FactoryOK fac) {w : World ℝ} (hw : WorldOK D w)
    {addrs : List Addr} (hne : addrs ≠ []) (hnd : addrs.Nodup) (hr : ∀ a ∈ addrs, Reachable env a) (o : Api.PutOpts ℝ)
    (hd : o.dp.vec.length = D o.ns) (hlive : o.dp.expireEnabled = false) (hl : ∀ d ∈ storedAt w addrs o.ns, ∀ q, ¬ Dead (env.tk q) d) (p : Nat) :
    ∃ w' p', (Api.putDataPoint env fac addrs (some o)).run w p = .ok ((200, w'), p') ∧ WorldOK D w' ∧
      (storedAt w' addrs o.ns).Perm (asDataPoint o.dp :: storedAt w addrs o.ns) ∧
      ∀ b ns', (b ∉ addrs ∨ ns' ≠ o.ns) → w'.get b ns' = w.get b ns' := by
  obtain ⟨status, w', p', h1, _, h3⟩ := C48_partial he hlost hf hw addrs (some o) p
  have hok : WorldOK D w' := by
    obtain ⟨r, q, e1, e2⟩ := Go.wp_iff.1 (wp_httpPut_ok he hf hw addrs o hd p)
    rw [h1] at e1
    cases e1
    exact e2
  rcases h3 o rfl with ⟨rfl, a, ha, ⟨m', e1, e2⟩, e3⟩ | ⟨_, _, hdown⟩
  · refine ⟨w', p', h1, hok, ?_, fun b ns' hb => e3 b ns' (hb.imp (fun h e => h (e ▸ ha)) id)⟩
    have hdl : ∀ x ∈ asDataPoint o.dp :: storedAt w [a] o.ns, ∀ q, ¬ Dead (env.tk q) x := by
      intro x hx q hdead
      rcases List.mem_cons.1 hx with rfl | hx
      · have := hdead.1
        simp [asDataPoint, hlive] at this
      · exact hl x (storedAt_get ha hx) q hdead
    have hnode : (stored m').Perm (asDataPoint o.dp :: storedAt w [a] o.ns) := by
      rcases e2 with e2 | ⟨e2, e4, e5⟩
      · exact Conserved.perm_of_live (tk := env.tk) (p := p') e2 hdl
      · exfalso
        obtain ⟨i, hl, hi⟩ := lookup_of_get hw e2
        have hmok := hw.mok hi
        rcases e5 with e5 | e5
        · obtain ⟨j, js, hj⟩ := knnCos_alwaysFinds o.dp.vec (m'.centroids.map (fun c => c.vec)) (by simpa using e4) (by
            intro v hv
            obtain ⟨x, hx, rfl⟩ := List.mem_map.1 hv
            rw [(hmok.wf.dim x hx).1, hmok.len, hd])
          simp only at e5
          rw [hj] at e5; simp at e5
        · exact e5 hd
    obtain ⟨rest, hrest⟩ := List.append_of_mem ha
    obtain ⟨t, hrest⟩ := hrest
    have hp : addrs.Perm (a :: (rest ++ t)) := by rw [hrest]; exact List.perm_middle
    have hna := List.nodup_cons.1 (hp.nodup_iff.1 hnd)
    refine (storedAt_perm o.ns hp).trans ?_
    refine List.Perm.trans ?_ ((storedAt_perm (w := w) o.ns hp).symm.cons _)
    rw [storedAt_cons w', storedAt_cons w, storedAt_one e1,
      storedAt_congr (w := w) (w' := w') (l := rest ++ t) (fun b hb => e3 b o.ns (.inl (by rintro rfl; exact hna.1 hb)))]
    permc [hnode]
  · obtain ⟨a, ha⟩ := List.exists_mem_of_ne_nil addrs hne
    obtain ⟨q, hq⟩ := hdown a ha
    rw [(hr a ha).1 q] at hq
    cases hq

theorem enough_exists {F : Type} [GoFloat F] [LawfulCmp F] (w : World F) (nodes : List Addr) (ns : NS) : ∃ N : Int, ∀ n, N ≤ n → Enough w nodes ns n := by
  refine ⟨(((storedAt w nodes ns).length + (nodes.map (fun a => (((w.get a ns).map (fun m => m.centroids.length)).getD 0))).sum : Nat) : Int),
    fun n hn => ⟨by omega, fun a ha m hg => ?_⟩⟩
  have := List.single_le_sum (l := nodes.map (fun a => (((w.get a ns).map (fun m => m.centroids.length)).getD 0))) (by simp) m.centroids.length
    (List.mem_map.2 ⟨a, ha, by rw [hg]; rfl⟩)
  omega

/-- C103, in exact arithmetic, with nodes that can be reached and nobody else at work. Datapoints of the namespace's dimension that do not
expire are put one after the other. All requests are answered with 200. Then every query that asks for enough datapoints with any
vector of that dimension is answered with exactly those that were stored before and those that were put. -/
theorem C103_put_then_query (he : EnvOK env) (hlost : NoLostReplies env) {fac : Factory ℝ} (hf : FactoryOK fac) {w : World ℝ} (hw : WorldOK D w)
    {addrs : List Addr} (hne : addrs ≠ []) (hnd : addrs.Nodup) (hr : ∀ a ∈ addrs, Reachable env a) (ns : NS) (hD : D ns ≠ 0)
    (hl : ∀ d ∈ storedAt w addrs ns, ∀ q, ¬ Dead (env.tk q) d) (os : List (Bool × Api.DP ℝ))
    (ho : ∀ o ∈ os, o.2.vec.length = D ns ∧ o.2.expireEnabled = false) (p : Nat) :
    ∃ w' p' N, (putAll env fac addrs ns os).run w p = .ok ((List.replicate os.length 200, w'), p') ∧
      ∀ o : Api.QueryOpts ℝ, o.ns = ns → o.vec.length = D ns → N ≤ o.n →
        ∃ (out : List (DataPoint ℝ)) (w'' : World ℝ) (p'' : Nat), (Api.queryDataPoint env addrs (some o)).run w' p' =
            .ok (((200, out.map (fun d => ⟨d.vec, d.payload, d.expires, d.expireEnabled⟩)), w''), p'') ∧
          out.Perm (storedAt w addrs ns ++ os.map (fun o => asDataPoint o.2)) := by
  have key : ∀ (os : List (Bool × Api.DP ℝ)) (w : World ℝ) (p : Nat), WorldOK D w → (∀ d ∈ storedAt w addrs ns, ∀ q, ¬ Dead (env.tk q) d) →
      (∀ o ∈ os, o.2.vec.length = D ns ∧ o.2.expireEnabled = false) →
      ∃ w' p', (putAll env fac addrs ns os).run w p = .ok ((List.replicate os.length 200, w'), p') ∧ WorldOK D w' ∧
        (storedAt w' addrs ns).Perm (storedAt w addrs ns ++ os.map (fun o => asDataPoint o.2)) := by
    intro os
    induction os with
    | nil => exact fun w p hw _ _ => ⟨w, p, by unfold putAll; rw [run_pure]; rfl, hw, by simp⟩
    | cons o os ih =>
      intro w p hw hl ho
      obtain ⟨w1, p1, e1, e2, e3, _⟩ := put_adds he hlost hf hw hne hnd hr ⟨ns, o.1, o.2⟩ (ho o (by simp)).1 (ho o (by simp)).2 hl p
      have hl1 : ∀ d ∈ storedAt w1 addrs ns, ∀ q, ¬ Dead (env.tk q) d := by
        intro d hd q hdead
        rcases List.mem_cons.1 (e3.subset hd) with rfl | hd
        · have := hdead.1
          simp [asDataPoint, (ho o (by simp)).2] at this
        · exact hl d hd q hdead
      obtain ⟨w2, p2, i1, i2, i3⟩ := ih w1 p1 e2 hl1 (fun o h => ho o (by simp [h]))
      refine ⟨w2, p2, ?_, i2, ?_⟩
      · unfold putAll
        refine (run_bind_ok e1).trans ((run_bind_ok i1).trans ?_)
        rw [run_pure]; rfl
      · simp only [List.map_cons]
        permc [i3, e3]
  obtain ⟨w', p', h1, h2, h3⟩ := key os w p hw hl ho
  obtain ⟨N, hN⟩ := enough_exists w' addrs ns
  refine ⟨w', p', N, h1, fun o hns hv hn => ?_⟩
  subst hns
  have hl' : ∀ d ∈ storedAt w' addrs o.ns, ∀ q, ¬ Dead (env.tk q) d := by
    intro d hd q hdead
    rcases List.mem_append.1 (h3.subset hd) with hd | hd
    · exact hl d hd q hdead
    · obtain ⟨e, he', rfl⟩ := List.mem_map.1 hd
      have := hdead.1
      simp [asDataPoint, (ho e he').2] at this
  obtain ⟨out, w'', p'', q1, q2, _⟩ := C102_exact he h2 o hD hv hnd hr hl' (hN o.n hn) p'
  exact ⟨out, w'', p'', q1, q2.trans h3⟩

end

/-- C103: the theorem for two nodes and a service that holds nothing yet. -/
example : ∃ w' p' N, (putAll ServerExample.env (⟨10, 100, knnCos, kfnCos⟩ : Factory ℝ) [1, 2] 7
      [(true, ⟨[1, 2], [], 0, false⟩), (false, ⟨[0, 0], [], 0, false⟩)]).run ⟨fun _ => [], []⟩ 0 = .ok ((List.replicate 2 200, w'), p') ∧
    ∀ o : Api.QueryOpts ℝ, o.ns = 7 → o.vec.length = 2 → N ≤ o.n →
      ∃ (out : List (DataPoint ℝ)) (w'' : World ℝ) (p'' : Nat), (Api.queryDataPoint ServerExample.env [1, 2] (some o)).run w' p' =
          .ok (((200, out.map (fun d => ⟨d.vec, d.payload, d.expires, d.expireEnabled⟩)), w''), p'') ∧
        out.Perm [⟨[1, 2], [], 0, false⟩, ⟨[0, 0], [], 0, false⟩] :=
  C103_put_then_query (D := fun _ => 2) ServerExample.env_ok (fun _ _ => rfl) ⟨by decide, rfl, rfl⟩ ⟨by simp, by simp, by simp, by simp⟩ (by simp) (by decide)
    (fun a _ => ⟨fun _ => rfl, fun _ => rfl⟩) 7 (by decide) (by simp [storedAt, World.get, World.lookup]) _ (by simp) 0

open ServerExample in
/-- C103: computed in float64. -/
example : ∃ r p', (do
      let s ← putAll env fac [1, 2] 7 [(true, ⟨[.ofInt 1, .ofInt 2], [], 0, false⟩), (false, ⟨[.ofInt 3, .ofInt 1], [], 0, false⟩)]
      let q ← Api.queryDataPoint env [1, 2] (some ⟨7, false, [.ofInt 1, .ofInt 1], 9, false⟩)
      pure (s, q.1, q.2.map (fun d => d.vec)) : Prog F64 _).run start 0 = .ok (r, p') ∧
    r.1 = ([200, 200], 200, [[.ofInt 1, .ofInt 2], [.ofInt 3, .ofInt 1]]) :=
  exists_of_run (by decide +kernel)

end Trypo
