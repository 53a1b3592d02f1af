import Verif.Props.Place
import Verif.Props.PutQuery
import Verif.Spec.Landing

/-!
# C114: where a datapoint that is put lands
-/

set_option linter.unusedSectionVars false
set_option linter.unusedVariables false

namespace Trypo
open GoFloat Spec

section
variable {F : Type} [GoFloat F] [LawfulCmp F]

/-- What a manager makes of a datapoint. -/
def Settled (d : DataPoint F) (m m' : Manager F) : Prop :=
  (m.centroids = [] ∧ m'.centroids.map (fun c => c.dps) = [[d]]) ∨
    (∃ j, Nearest d.vec (m.centroids.map (fun c => c.vec)) (some j) ∧ ReceivedAt d j m m') ∨
    (m.centroids ≠ [] ∧ Nearest d.vec (m.centroids.map (fun c => c.vec)) none ∧ m' = m)

theorem wp_server_add_place {env : Env} (hm : MonoClock env.tk) {fac : Factory F} {D : NS → Nat} {w : World F}
    (hw : WorldOK D w) {a : Addr} {ns : NS} {m : Manager F} (hg : w.get a ns = some m) (d : DataPoint F)
    (hl : ∀ e ∈ d :: stored m, ∀ q, ¬ Dead (env.tk q) e) (p : Nat) :
    Go.wp ((Server.addDataPoint env fac a ns d).run w) (fun r _ => r.1 = true ∧ ∃ m', OnlyAt w r.2 ns a m m' ∧ Settled d m m') p := by
  unfold Server.addDataPoint
  obtain ⟨i, hlk, hi⟩ := lookup_of_get hw hg
  have hok := hw.mok hi
  rw [run_bind, run_access_some hlk hi, bind_assoc, Go.wp_bind]
  refine Go.wp_mono (Go.wp_and (Manager.wp_addDataPoint hm hok.wf d p) (Manager.wp_addDataPoint_place hm hok.wf hok.knn d hl p))
    (fun r p' hr => ?_)
  obtain ⟨⟨_, h2, _, _, _⟩, h3, h4, h5⟩ := hr
  rw [pure_bind, run_pure, Go.wp_pure]
  refine ⟨rfl, r.2, ⟨hg, get_put_self hlk hi, fun b ns' hb => get_put_other hw hlk hi hb⟩, ?_⟩
  by_cases h0 : m.centroids = []
  · exact .inl ⟨h0, (h3 h0).2⟩
  · cases hb : r.1 with
    | true =>
      obtain ⟨j, l, e1, e2, e3⟩ := h5 h0 hb
      exact .inr (.inl ⟨j, e1, l, e2, e3⟩)
    | false => exact .inr (.inr ⟨h0, h4 hb, h2 hb⟩)

theorem wp_client_add_place {env : Env} (hm : MonoClock env.tk) {fac : Factory F} {D : NS → Nat} {w : World F}
    (hw : WorldOK D w) {a : Addr} (hr : Reachable env a) {ns : NS} {m : Manager F} (hg : w.get a ns = some m) (d : DataPoint F)
    (hl : ∀ e ∈ d :: stored m, ∀ q, ¬ Dead (env.tk q) e) (p : Nat) :
    Go.wp ((Client.addDataPoint env fac a ns d).run w) (fun r _ => r.1 = true ∧ ∃ m', OnlyAt w r.2 ns a m m' ∧ Settled d m m') p := by
  unfold Client.addDataPoint Client.call
  simp only [run_bind, Go.wp_bind, run_loc]
  refine wp_sent ?_
  rw [Go.wp_pure, hr.1 p]
  simp only [if_true, run_bind, Go.wp_bind]
  refine Go.wp_mono (wp_server_add_place hm hw hg d hl (p + 1)) (fun r p1 h => ?_)
  rw [run_pure, Go.wp_pure, run_loc, Go.wp_bind]
  refine wp_arrived ?_
  rw [Go.wp_pure, hr.2 p1]
  simp only [if_true, run_pure, Go.wp_pure, Option.getD_some]
  exact h

/-- The first node of a list that can be reached takes the datapoint. -/
theorem wp_put_place {env : Env} (hm : MonoClock env.tk) {fac : Factory F} {D : NS → Nat} {w : World F}
    (hw : WorldOK D w) {a : Addr} (hr : Reachable env a) {ns : NS} {m : Manager F} (hg : w.get a ns = some m) (d : DataPoint F)
    (hl : ∀ e ∈ d :: stored m, ∀ q, ¬ Dead (env.tk q) e) (as : List Addr) (p : Nat) :
    Go.wp ((Dps.putDataPoint env fac ns d (a :: as)).run w) (fun r _ => r.1 = true ∧ ∃ m', OnlyAt w r.2 ns a m m' ∧ Settled d m m') p := by
  unfold Dps.putDataPoint
  rw [run_bind, Go.wp_bind]
  refine Go.wp_mono (wp_client_add_place hm hw hr hg d hl p) (fun r p1 h => ?_)
  simp only [h.1, if_true, run_pure, Go.wp_pure]
  exact ⟨trivial, h.2⟩

theorem isCandidate_iff_score {dist : List F → Option F} {asc : Bool} {v : List F} :
    isCandidate dist asc v = true ↔ ∃ s, dist v = some s ∧ Comparable asc s := by
  unfold isCandidate
  cases dist v with
  | none => simp
  | some s => simp

theorem heard_reachable {β : Type} {env : Env} {a : Addr} {val r : Option β} (hr : Reachable env a) (h : Heard env a val r) : r = val := by
  rcases h with h | ⟨_, q, h | h⟩
  · exact h
  · rw [hr.1 q] at h; cases h
  · rw [hr.2 q] at h; cases h

theorem better_or {a b c : F} (h : Better false a b) (hc : eq c c = true) : Better false c b ∨ Better false a c := by
  simp only [Better, Bool.false_eq_true, if_false] at h ⊢
  exact LawfulCmp.lt_connected b a c h hc

/-- The first of the best nodes. -/
theorem bestFit_head {dist : List F → Option F} {asc : Bool} {answers : List (Addr × Option (List F))} {a : Addr} {as : List Addr}
    (h : BestFit dist asc answers (a :: as)) : ∃ v s, (a, some v) ∈ answers ∧ v ≠ [] ∧ dist v = some s ∧ Comparable asc s ∧
      ∀ b u t, (b, some u) ∈ answers → u ≠ [] → dist u = some t → Comparable asc t → ¬ Better asc t s := by
  obtain ⟨chosen, h1, h2, h3⟩ := h
  cases chosen with
  | nil => simp at h1
  | cons q qs =>
    obtain ⟨b, v⟩ := q
    simp only [List.map_cons, List.cons.injEq] at h1
    obtain ⟨rfl, _⟩ := h1
    have hmem := h2.subset (List.mem_map.2 ⟨(a, v), by simp, rfl⟩)
    rw [List.mem_filter] at hmem
    have hc : v ≠ [] ∧ isCandidate dist asc v = true := by simpa using hmem.2
    obtain ⟨s, hs1, hs2⟩ := isCandidate_iff_score.1 hc.2
    refine ⟨v, s, hmem.1, hc.1, hs1, hs2, fun b u t hu hne ht hcmp hbet => ?_⟩
    have hin : (b, some u) ∈ ((a, v) :: qs).map (fun q => (q.1, some q.2)) := by
      refine h2.symm.subset (List.mem_filter.2 ⟨hu, ?_⟩)
      simpa using ⟨hne, isCandidate_iff_score.2 ⟨t, ht, hcmp⟩⟩
    obtain ⟨q, hq1, hq2⟩ := List.mem_map.1 hin
    obtain ⟨q1, q2⟩ := q
    simp only [Prod.mk.injEq, Option.some.injEq] at hq2
    obtain ⟨rfl, rfl⟩ := hq2
    rcases List.mem_cons.1 hq1 with e | e
    · cases e
      rw [hs1] at ht
      cases ht
      unfold Better at hbet
      split at hbet <;> rw [LawfulCmp.lt_irrefl] at hbet <;> cases hbet
    · exact (List.pairwise_cons.1 h3).1 _ e s t hs1 ht hbet

theorem bestFit_none {dist : List F → Option F} {asc : Bool} {answers : List (Addr × Option (List F))}
    (h : BestFit dist asc answers []) : ∀ b u t, (b, some u) ∈ answers → u ≠ [] → dist u = some t → ¬ Comparable asc t := by
  obtain ⟨chosen, h1, h2, _⟩ := h
  intro b u t hu hne ht hcmp
  have hin : (b, some u) ∈ chosen.map (fun q => (q.1, some q.2)) := by
    refine h2.symm.subset (List.mem_filter.2 ⟨hu, ?_⟩)
    simpa using ⟨hne, isCandidate_iff_score.2 ⟨t, ht, hcmp⟩⟩
  rw [show chosen = [] by cases chosen with | nil => rfl | cons _ _ => simp at h1] at hin
  simp at hin

theorem mem_answers {addrs : List Addr} {answers : List (Addr × Option (List F))} (h : (answers.map (fun q => q.1)).Perm addrs) :
    (∀ q ∈ answers, q.1 ∈ addrs) ∧ ∀ a ∈ addrs, ∃ r, (a, r) ∈ answers := by
  refine ⟨fun q hq => h.subset (List.mem_map.2 ⟨q, hq, rfl⟩), fun a ha => ?_⟩
  obtain ⟨q, hq, rfl⟩ := List.mem_map.1 (h.symm.subset ha)
  exact ⟨q.2, hq⟩

theorem stored_storedAt {w : World F} {a : Addr} {addrs : List Addr} (ha : a ∈ addrs) {ns : NS} {m : Manager F} (hg : w.get a ns = some m)
    {e : DataPoint F} (he : e ∈ stored m) : e ∈ storedAt w addrs ns :=
  storedAt_get ha (by rw [storedAt_one hg]; exact he)

theorem wp_putAccurate_place {env : Env} (he : EnvOK env) {fac : Factory F} {D : NS → Nat}
    {w : World F} (hw : WorldOK D w) {addrs : List Addr} (hr : ∀ a ∈ addrs, Reachable env a) (ns : NS) (hD : D ns ≠ 0) (d : DataPoint F)
    (hl : ∀ e ∈ d :: storedAt w addrs ns, ∀ q, ¬ Dead (env.tk q) e) (p : Nat) :
    Go.wp ((Dps.putDataPointAccurate env fac knnCos addrs ns d).run w) (fun r _ =>
      (r.1 = true ∧ LandedNearest addrs ns d w r.2) ∨
      (r.1 = false ∧ r.2 = w ∧ ∀ a ∈ addrs, ∀ i t, ¬ ScoreAt w ns d.vec a i t)) p := by
  unfold Dps.putDataPointAccurate
  rw [run_bind, Go.wp_bind]
  refine Go.wp_mono (wp_bestAccurate he hw knnCos_searchesBest addrs ns d.vec p) (fun r p1 h => ?_)
  obtain ⟨_, h2, answers, h3, h4, h5⟩ := h
  obtain ⟨hin, hex⟩ := mem_answers h3
  rw [h2]
  -- a centroid that can be compared makes its node answer with one that is at least as similar
  have answer : ∀ b ∈ addrs, ∀ i t, ScoreAt w ns d.vec b i t → ∃ u s, (b, some u) ∈ answers ∧ u ≠ [] ∧
      cosineSimilarity d.vec u = some s ∧ Comparable false s ∧ ¬ Better false t s := by
    intro b hb i t ⟨m, hg, u, hu, hus, hcmp⟩
    obtain ⟨x, hx⟩ := hex b hb
    obtain ⟨val, hval, hheard⟩ := h4 _ hx
    have := heard_reachable (hr b hb) hheard
    simp only at this hval
    rcases hval with ⟨hn, _⟩ | ⟨m1, u1, hg1, hv1, hnear⟩
    · rw [hg] at hn; cases hn
    · rw [hg] at hg1; cases hg1
      rw [this, hv1] at hx
      obtain ⟨c, hc, rfl⟩ := List.mem_map.1 (List.mem_of_getElem? hu)
      obtain ⟨k, hlk, hk⟩ := lookup_of_get hw hg
      have hok := hw.mok hk
      rcases hnear with ⟨_, hno⟩ | ⟨c', hc', rfl, hcand, hbest⟩
      · have := hno c hc
        rw [isCandidate_iff_score.2 ⟨t, hus, hcmp⟩] at this; cases this
      · obtain ⟨s, hs1, hs2⟩ := isCandidate_iff_score.1 hcand
        refine ⟨_, s, hx, fun e => hD ?_, hs1, hs2, hbest c hc s t hs1 hus hcmp⟩
        rw [← hok.len, ← (hok.wf.dim c' hc').1, e]; rfl
  cases has : r.1 with
  | nil =>
    rw [has] at h5
    unfold Dps.putDataPoint
    rw [run_pure, Go.wp_pure]
    refine .inr ⟨rfl, rfl, fun a ha i t hsc => ?_⟩
    obtain ⟨u, s, e1, e2, e3, e4, _⟩ := answer a ha i t hsc
    exact bestFit_none h5 a u s e1 e2 e3 e4
  | cons a as =>
    rw [has] at h5
    obtain ⟨v, s, hv, hvne, hvs, hcmp, hbest⟩ := bestFit_head h5
    have ha := hin _ hv
    obtain ⟨val, hval, hheard⟩ := h4 _ hv
    have heq := heard_reachable (hr a ha) hheard
    simp only at hval heq
    rcases hval with ⟨_, hn⟩ | ⟨m, u1, hg, hv1, hnear⟩
    · rw [hn] at heq; cases heq
    · rw [hv1] at heq; cases heq
      refine Go.wp_mono (wp_put_place he.clock hw (hr a ha) hg d (fun e hx q => ?_) as p1) (fun q p2 hq => .inl ⟨hq.1, ?_⟩)
      · rcases List.mem_cons.1 hx with rfl | hx
        · exact hl _ (by simp) q
        · exact hl e (List.mem_cons_of_mem _ (stored_storedAt ha hg hx)) q
      · -- the node has a centroid that can be compared
        have hsome : ∃ i t, HasScore (cosineSimilarity d.vec) false (m.centroids.map (fun c => c.vec)) i t ∧ t = s := by
          rcases hnear with ⟨rfl, hno⟩ | ⟨c, hc, rfl, _, _⟩
          · exact absurd rfl hvne
          · obtain ⟨i, hi⟩ := List.getElem?_of_mem hc
            exact ⟨i, s, ⟨c.vec, by rw [List.getElem?_map, hi]; rfl, hvs, hcmp⟩, rfl⟩
        obtain ⟨i, _, hi, rfl⟩ := hsome
        obtain ⟨m', ho, hset⟩ := hq.2
        rcases hset with ⟨h0, _⟩ | ⟨j, hj, hrec⟩ | ⟨_, hno, _⟩
        · rw [h0] at hi; obtain ⟨_, e, _⟩ := hi; simp at e
        · obtain ⟨s', hs', hmax⟩ := hj
          refine ⟨a, ha, m, m', j, s', ho, hrec, ⟨m, hg, hs'⟩, fun b hb i' t hsc hbet => ?_⟩
          obtain ⟨u, t', e1, e2, e3, e4, e5⟩ := answer b hb i' t hsc
          -- t is not better than t', t' not better than s, s not better than s'
          have n2 := hbest b u t' e1 e2 e3 e4
          have n3 := (hmax i _ hi).1
          exact n2 ((better_or hbet (comparable_num e4)).resolve_right e5 |> fun h => (better_or h (comparable_num hcmp)).resolve_left n3)
        · exact absurd hi (hno i _)

theorem wp_putFast_place {env : Env} (he : EnvOK env) {fac : Factory F} {D : NS → Nat}
    {w : World F} (hw : WorldOK D w) {addrs : List Addr} (hr : ∀ a ∈ addrs, Reachable env a) (ns : NS) (hD : D ns ≠ 0) (d : DataPoint F)
    (hl : ∀ e ∈ d :: storedAt w addrs ns, ∀ q, ¬ Dead (env.tk q) e) (p : Nat) :
    Go.wp ((Dps.putDataPointFast env fac knnCos addrs ns d).run w) (fun r _ =>
      (r.1 = true ∧ LandedFast addrs ns d w r.2) ∨
      (r.1 = false ∧ r.2 = w ∧ ∀ a ∈ addrs, ∀ t, ¬ ScoreOf w ns d.vec a t)) p := by
  unfold Dps.putDataPointFast
  rw [run_bind, Go.wp_bind]
  refine Go.wp_mono (wp_bestFast he hw knnCos_searchesBest addrs ns d.vec p) (fun r p1 h => ?_)
  obtain ⟨_, h2, answers, h3, h4, h5⟩ := h
  obtain ⟨hin, hex⟩ := mem_answers h3
  rw [h2]
  have answer : ∀ b ∈ addrs, ∀ t, ScoreOf w ns d.vec b t → ∃ u, (b, some u) ∈ answers ∧ u ≠ [] ∧
      cosineSimilarity d.vec u = some t ∧ Comparable false t := by
    intro b hb t ⟨m, hg, hus, hcmp⟩
    obtain ⟨x, hx⟩ := hex b hb
    have := heard_reachable (hr b hb) (h4 _ hx)
    simp only [hg, Option.map_some] at this
    rw [this] at hx
    obtain ⟨k, hlk, hk⟩ := lookup_of_get hw hg
    refine ⟨_, hx, fun e => hD ?_, hus, hcmp⟩
    rw [← (hw.mok hk).len, e]; rfl
  cases has : r.1 with
  | nil =>
    rw [has] at h5
    unfold Dps.putDataPoint
    rw [run_pure, Go.wp_pure]
    refine .inr ⟨rfl, rfl, fun a ha t hsc => ?_⟩
    obtain ⟨u, e1, e2, e3, e4⟩ := answer a ha t hsc
    exact bestFit_none h5 a u t e1 e2 e3 e4
  | cons a as =>
    rw [has] at h5
    obtain ⟨v, s, hv, hvne, hvs, hcmp, hbest⟩ := bestFit_head h5
    have ha := hin _ hv
    have heq := heard_reachable (hr a ha) (h4 _ hv)
    simp only at heq
    cases hg : w.get a ns with
    | none => rw [hg] at heq; cases heq
    | some m =>
      rw [hg] at heq; cases heq
      refine Go.wp_mono (wp_put_place he.clock hw (hr a ha) hg d (fun e hx q => ?_) as p1) (fun q p2 hq => .inl ⟨hq.1, ?_⟩)
      · rcases List.mem_cons.1 hx with rfl | hx
        · exact hl _ (by simp) q
        · exact hl e (List.mem_cons_of_mem _ (stored_storedAt ha hg hx)) q
      · obtain ⟨m', ho, hset⟩ := hq.2
        refine ⟨a, ha, m, m', s, ho, ⟨m, hg, hvs, hcmp⟩, fun b hb t hsc => ?_, hset⟩
        obtain ⟨u, e1, e2, e3, e4⟩ := answer b hb t hsc
        exact hbest b u t e1 e2 e3 e4

/-- C114, `PutDataPointAccurate`. The nodes can be reached and nothing expires meanwhile. Then the datapoint lands at the centroid
that is most similar of all those at the nodes; or no centroid can be compared, and then nothing is done and `false` returned. -/
theorem C114_accurate {env : Env} (he : EnvOK env) {fac : Factory F} {D : NS → Nat}
    {w : World F} (hw : WorldOK D w) {addrs : List Addr} (hr : ∀ a ∈ addrs, Reachable env a) (ns : NS) (hD : D ns ≠ 0) (d : DataPoint F)
    (hl : ∀ e ∈ d :: storedAt w addrs ns, ∀ q, ¬ Dead (env.tk q) e) (p : Nat) :
    ∃ b w' p', (Dps.putDataPointAccurate env fac knnCos addrs ns d).run w p = .ok ((b, w'), p') ∧
      ((b = true ∧ LandedNearest addrs ns d w w') ∨
        (b = false ∧ w' = w ∧ ∀ a ∈ addrs, ∀ i t, ¬ ScoreAt w ns d.vec a i t)) := by
  obtain ⟨r, p', h0, h1⟩ := Go.wp_iff.1 (wp_putAccurate_place (fac := fac) he hw hr ns hD d hl p)
  exact ⟨r.1, r.2, p', h0, h1⟩

/-- C114, `PutDataPointFast`: the same with the most similar centroid of the node whose manager is most similar. -/
theorem C114_fast {env : Env} (he : EnvOK env) {fac : Factory F} {D : NS → Nat}
    {w : World F} (hw : WorldOK D w) {addrs : List Addr} (hr : ∀ a ∈ addrs, Reachable env a) (ns : NS) (hD : D ns ≠ 0) (d : DataPoint F)
    (hl : ∀ e ∈ d :: storedAt w addrs ns, ∀ q, ¬ Dead (env.tk q) e) (p : Nat) :
    ∃ b w' p', (Dps.putDataPointFast env fac knnCos addrs ns d).run w p = .ok ((b, w'), p') ∧
      ((b = true ∧ LandedFast addrs ns d w w') ∨
        (b = false ∧ w' = w ∧ ∀ a ∈ addrs, ∀ t, ¬ ScoreOf w ns d.vec a t)) := by
  obtain ⟨r, p', h0, h1⟩ := Go.wp_iff.1 (wp_putFast_place (fac := fac) he hw hr ns hD d hl p)
  exact ⟨r.1, r.2, p', h0, h1⟩

/-- C114, the HTTP request, for a datapoint some centroid (`accurate`) or some manager (not `accurate`) can be compared with. -/
theorem C114_http {env : Env} (he : EnvOK env) {fac : Factory F} {D : NS → Nat}
    {w : World F} (hw : WorldOK D w) {addrs : List Addr} (hr : ∀ a ∈ addrs, Reachable env a) (o : Api.PutOpts F) (hD : D o.ns ≠ 0)
    (hlive : o.dp.expireEnabled = false) (hl : ∀ e ∈ storedAt w addrs o.ns, ∀ q, ¬ Dead (env.tk q) e)
    (hsome : if o.accurate then ∃ a ∈ addrs, ∃ i t, ScoreAt w o.ns o.dp.vec a i t else ∃ a ∈ addrs, ∃ t, ScoreOf w o.ns o.dp.vec a t) (p : Nat) :
    ∃ w' p', (Api.putDataPoint env fac addrs (some o)).run w p = .ok ((200, w'), p') ∧
      if o.accurate then LandedNearest addrs o.ns (asDataPoint o.dp) w w' else LandedFast addrs o.ns (asDataPoint o.dp) w w' := by
  have hl' : ∀ e ∈ o.dp.toDataPoint :: storedAt w addrs o.ns, ∀ q, ¬ Dead (env.tk q) e := by
    intro e hx q hdead
    rcases List.mem_cons.1 hx with rfl | hx
    · have := hdead.1
      simp [Api.DP.toDataPoint, hlive] at this
    · exact hl e hx q hdead
  have key : Go.wp ((Api.putDataPoint env fac addrs (some o)).run w) (fun r _ => r.1 = 200 ∧
      if o.accurate then LandedNearest addrs o.ns (asDataPoint o.dp) w r.2 else LandedFast addrs o.ns (asDataPoint o.dp) w r.2) p := by
    unfold Api.putDataPoint
    simp only [run_bind, Go.wp_bind]
    cases hacc : o.accurate with
    | true =>
      simp only [hacc, if_true] at hsome ⊢
      refine Go.wp_mono (wp_putAccurate_place (fac := fac) he hw hr o.ns hD _ hl' p) (fun r p1 h => ?_)
      rcases h with ⟨h1, h2⟩ | ⟨_, _, h3⟩
      · simp only [h1, if_true, run_pure, Go.wp_pure]
        exact ⟨trivial, h2⟩
      · obtain ⟨a, ha, i, t, h⟩ := hsome
        exact absurd h (h3 a ha i t)
    | false =>
      simp only [hacc, Bool.false_eq_true, if_false] at hsome ⊢
      refine Go.wp_mono (wp_putFast_place (fac := fac) he hw hr o.ns hD _ hl' p) (fun r p1 h => ?_)
      rcases h with ⟨h1, h2⟩ | ⟨_, _, h3⟩
      · simp only [h1, if_true, run_pure, Go.wp_pure]
        exact ⟨trivial, h2⟩
      · obtain ⟨a, ha, t, h⟩ := hsome
        exact absurd h (h3 a ha t)
  obtain ⟨⟨s, w'⟩, p', h0, h1, h2⟩ := Go.wp_iff.1 key
  simp only at h1 h2
  subst h1
  exact ⟨w', p', h0, h2⟩

end

namespace LandingExample
open ServerExample

/-- Node 1 has centroids in two directions, node 2 has one in between. -/
def spread : World F64 := nodes2
  (man [.ofInt 1, .ofInt 1] [cen [.ofInt 0, .ofInt 2] [dp 0 2], cen [.ofInt 2, .ofInt 0] [dp 2 0]])
  (man [.ofInt 3, .ofInt 1] [cen [.ofInt 3, .ofInt 1] [dp 3 1]]) (man [.ofInt 3, .ofInt 4] [cen [.ofInt 3, .ofInt 4] [dp 3 4]])

theorem spread_ok : WorldOK (fun _ => 2) spread :=
  nodes2_ok (man_mok rfl (by simp [cen, dp]) (by simp [cen])) (man_mok rfl (by simp [cen, dp]) (by simp [cen]))
    (man_mok rfl (by simp [cen, dp]) (by simp [cen]))

/-- The datapoints of the centroids of nodes 1 and 2 in namespace 7. -/
def lists12 (w : World F64) : List (List (List (DataPoint F64))) :=
  [1, 2].map (fun a => ((w.get a 7).map (fun m => m.centroids.map (fun c => c.dps))).getD [])

theorem spread_live : ∀ e ∈ storedAt spread [1, 2] 7, ∀ q, ¬ Dead (env.tk q) e := by
  have h : storedAt spread [1, 2] 7 = [dp 0 2, dp 2 0, dp 3 1] := rfl
  rw [h]
  simp [Dead, dp]

end LandingExample
open LandingExample ServerExample

/-- C114: with `accurate`, `[5, 0]` lands at the centroid `[2, 0]` of node 1; without, at node 2, whose manager is more similar. -/
example : (∃ r p', (Api.putDataPoint env fac [1, 2] (some ⟨7, true, ⟨[.ofInt 5, .ofInt 0], [], 0, false⟩⟩)).run spread 0 = .ok (r, p') ∧
      (r.1, lists12 r.2) = (200, [[[dp 0 2], [dp 2 0, dp 5 0]], [[dp 3 1]]])) ∧
    (∃ r p', (Api.putDataPoint env fac [1, 2] (some ⟨7, false, ⟨[.ofInt 5, .ofInt 0], [], 0, false⟩⟩)).run spread 0 = .ok (r, p') ∧
      (r.1, lists12 r.2) = (200, [[[dp 0 2], [dp 2 0]], [[dp 3 1, dp 5 0]]])) :=
  ⟨exists_of_run (f := fun r : Nat × World F64 => (r.1, lists12 r.2)) (by decide +kernel), exists_of_run (f := fun r : Nat × World F64 => (r.1, lists12 r.2)) (by decide +kernel)⟩

/-- C114: what the theorem says about any datapoint that is put there with `accurate`. -/
example (v : List F64) (pl : List UInt8) : ∃ b w' p', (Dps.putDataPointAccurate env fac knnCos [1, 2] 7 ⟨v, pl, 0, false⟩).run spread 0 = .ok ((b, w'), p') ∧
    ((b = true ∧ LandedNearest [1, 2] 7 ⟨v, pl, 0, false⟩ spread w') ∨
      (b = false ∧ w' = spread ∧ ∀ a ∈ [1, 2], ∀ i t, ¬ ScoreAt spread 7 v a i t)) :=
  C114_accurate (D := fun _ => 2) env_ok spread_ok (fun a _ => ⟨fun _ => rfl, fun _ => rfl⟩) 7 (by decide) _ (by
    intro e he q
    rcases List.mem_cons.1 he with rfl | he
    · simp [Dead]
    · exact spread_live e he q) 0

/-- C114: and without `accurate`. -/
example (v : List F64) (pl : List UInt8) : ∃ b w' p', (Dps.putDataPointFast env fac knnCos [1, 2] 7 ⟨v, pl, 0, false⟩).run spread 0 = .ok ((b, w'), p') ∧
    ((b = true ∧ LandedFast [1, 2] 7 ⟨v, pl, 0, false⟩ spread w') ∨
      (b = false ∧ w' = spread ∧ ∀ a ∈ [1, 2], ∀ t, ¬ ScoreOf spread 7 v a t)) :=
  C114_fast (D := fun _ => 2) env_ok spread_ok (fun a _ => ⟨fun _ => rfl, fun _ => rfl⟩) 7 (by decide) _ (by
    intro e he q
    rcases List.mem_cons.1 he with rfl | he
    · simp [Dead]
    · exact spread_live e he q) 0

/-- C114: the HTTP request, with the vector of one of the centroids. -/
example : ∃ w' p', (Api.putDataPoint env fac [1, 2] (some ⟨7, true, ⟨[.ofInt 2, .ofInt 0], [], 0, false⟩⟩)).run spread 0 = .ok ((200, w'), p') ∧
    LandedNearest [1, 2] 7 (dp 2 0) spread w' :=
  C114_http (D := fun _ => 2) env_ok spread_ok (fun a _ => ⟨fun _ => rfl, fun _ => rfl⟩) ⟨7, true, ⟨[.ofInt 2, .ofInt 0], [], 0, false⟩⟩
    (by decide) rfl spread_live ⟨1, by simp, 1, .ofInt 1, _, rfl, _, rfl, by decide +kernel, by decide +kernel⟩ 0

end Trypo
