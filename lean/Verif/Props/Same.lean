import Verif.Props.Prefix
import Verif.Props.ReadOnly
import Verif.Props.Landing
import Mathlib.Data.List.Sort

/-!
# The same query of nodes that hold the same

A query asks the nodes for a vector each, at the same time, and then asks them for datapoints in the order of how similar those vectors are. The
answer should depend on what the nodes hold and on nothing else. It does where of any two nodes one is more similar than the other. Nodes that
are equally similar are asked in the order in which their vectors happened to arrive.
-/

set_option linter.unusedSectionVars false

namespace Trypo
open GoFloat Spec
variable {F : Type} [GoFloat F] [LawfulCmp F]

namespace Spec

/-- The node `a` has a score that is better than all those of `b`. `sc` says which scores a node has. -/
def Leads (sc : Addr → F → Prop) (a b : Addr) : Prop := ∃ s, sc a s ∧ ∀ t, sc b t → Better false s t

/-- Of any two nodes that have scores one leads. -/
def Apart (sc : Addr → F → Prop) (addrs : List Addr) : Prop :=
  ∀ a ∈ addrs, ∀ b ∈ addrs, a ≠ b → (∃ s, sc a s) → (∃ t, sc b t) → Leads sc a b ∨ Leads sc b a

/-- `as` are the nodes of `addrs` that have scores, those that lead first. -/
structure RankedBy (sc : Addr → F → Prop) (addrs as : List Addr) : Prop where
  nodup : as.Nodup
  mem : ∀ a, a ∈ as ↔ a ∈ addrs ∧ ∃ s, sc a s
  sorted : as.Pairwise (Leads sc)

/-- The similarities that the nodes show in a query for `v`: those of their centroids if the query is accurate, that of the manager otherwise. -/
def ShownScore (w : World F) (ns : NS) (v : List F) (accurate : Bool) (a : Addr) (s : F) : Prop :=
  if accurate then ∃ i, ScoreAt w ns v a i s else ScoreOf w ns v a s

/-- The nodes `addrs` hold the same in `ns` in both worlds; the vectors of the managers may differ if the query is accurate. -/
def HoldSame (addrs : List Addr) (ns : NS) (accurate : Bool) (w w' : World F) : Prop :=
  ∀ a ∈ addrs, if accurate then (w'.get a ns).map (fun m => { m with vec := [] }) = (w.get a ns).map (fun m => { m with vec := [] })
    else w'.get a ns = w.get a ns

end Spec

theorem leads_asymm {sc : Addr → F → Prop} {a b : Addr} (h : Leads sc a b) (h' : Leads sc b a) : False := by
  obtain ⟨s, hs, h1⟩ := h
  obtain ⟨t, ht, h2⟩ := h'
  exact better_asymm (h1 t ht) (h2 s hs)

/-- There is one ranking at most. -/
theorem ranked_unique {sc : Addr → F → Prop} {addrs as as' : List Addr} (h : RankedBy sc addrs as) (h' : RankedBy sc addrs as') : as = as' :=
  List.Perm.eq_of_pairwise (fun _ _ _ _ x y => (leads_asymm x y).elim) h.sorted h'.sorted
    ((List.perm_ext_iff_of_nodup h.nodup h'.nodup).2 (fun a => by rw [h.mem, h'.mem]))

/-- The best fits are ranked, if every node with a score gave its best one. -/
theorem ranked_of_bestFit {dist : List F → Option F} {sc : Addr → F → Prop} {addrs as : List Addr} {answers : List (Addr × Option (List F))}
    (hnd : addrs.Nodup) (hp : (answers.map (fun q => q.1)).Perm addrs) (hb : BestFit dist false answers as) (hap : Apart sc addrs)
    (hout : ∀ a u s, (a, some u) ∈ answers → u ≠ [] → dist u = some s → Comparable false s → sc a s ∧ ∀ t, sc a t → ¬ Better false t s)
    (hin : ∀ a ∈ addrs, ∀ s, sc a s → ∃ u t, (a, some u) ∈ answers ∧ u ≠ [] ∧ dist u = some t ∧ Comparable false t) : RankedBy sc addrs as := by
  have hn := bestFit_nodup hb hp hnd
  have hsub := bestFit_sub hb hp
  obtain ⟨chosen, rfl, h2, h3⟩ := hb
  have hch : ∀ q ∈ chosen, ∃ s, dist q.2 = some s ∧ Comparable false s ∧ sc q.1 s ∧ ∀ t, sc q.1 t → ¬ Better false t s := by
    intro q hq
    have hmem := h2.subset (List.mem_map.2 ⟨q, hq, rfl⟩)
    rw [List.mem_filter] at hmem
    have hc : q.2 ≠ [] ∧ isCandidate dist false q.2 = true := by simpa using hmem.2
    obtain ⟨s, hs1, hs2⟩ := isCandidate_iff_score.1 hc.2
    exact ⟨s, hs1, hs2, hout q.1 q.2 s hmem.1 hc.1 hs1 hs2⟩
  refine ⟨hn, fun a => ⟨fun ha => ⟨hsub a ha, ?_⟩, fun ⟨ha, s, hs⟩ => ?_⟩, ?_⟩
  · obtain ⟨q, hq, rfl⟩ := List.mem_map.1 ha
    obtain ⟨s, _, _, hs, _⟩ := hch q hq
    exact ⟨s, hs⟩
  · obtain ⟨u, t, e1, e2, e3, e4⟩ := hin a ha s hs
    have hin : (a, some u) ∈ chosen.map (fun q => (q.1, some q.2)) := by
      refine h2.symm.subset (List.mem_filter.2 ⟨e1, ?_⟩)
      simpa using ⟨e2, isCandidate_iff_score.2 ⟨t, e3, e4⟩⟩
    obtain ⟨q, hq1, hq2⟩ := List.mem_map.1 hin
    exact List.mem_map.2 ⟨q, hq1, congrArg (fun x => x.1) hq2⟩
  · rw [List.pairwise_map]
    have hn' : chosen.Pairwise (fun q r => q.1 ≠ r.1) := by
      have := hn
      rw [List.nodup_iff_pairwise_ne, List.pairwise_map] at this
      exact this
    refine List.Pairwise.imp_of_mem (fun {q r} hq hr h => ?_) (h3.and hn')
    obtain ⟨s, s1, s2, s3, s4⟩ := hch q hq
    obtain ⟨t, t1, t2, t3, t4⟩ := hch r hr
    rcases hap q.1 (hsub _ (List.mem_map.2 ⟨q, hq, rfl⟩)) r.1 (hsub _ (List.mem_map.2 ⟨r, hr, rfl⟩)) h.2 ⟨s, s3⟩ ⟨t, t3⟩ with hl | ⟨t', ht', hl⟩
    · exact hl
    · rcases better_or (hl s s3) (comparable_num t2) with e | e
      · exact absurd e (h.1 s t s1 t1)
      · exact absurd e (t4 t' ht')

/-- Which nodes an accurate query asks, and in which order. -/
theorem wp_bestAccurate_ranked {env : Env} (he : EnvOK env) {D : NS → Nat} {w : World F} (hw : WorldOK D w) {addrs : List Addr} (hnd : addrs.Nodup)
    (hr : ∀ a ∈ addrs, Reachable env a) (ns : NS) (hD : D ns ≠ 0) (v : List F) (hap : Apart (ShownScore w ns v true) addrs) (p : Nat) :
    Go.wp ((Nodes.bestFitNodesAccurate env knnCos addrs ns v).run w) (fun r _ => r.2 = w ∧ RankedBy (ShownScore w ns v true) addrs r.1) p := by
  refine Go.wp_mono (wp_bestAccurate he hw knnCos_searchesBest addrs ns v p) (fun r p1 h => ?_)
  obtain ⟨_, h2, answers, h3, h4, h5⟩ := h
  obtain ⟨hin, hex⟩ := mem_answers h3
  refine ⟨h2, ranked_of_bestFit hnd h3 h5 hap (fun a u s hu hne hs hcmp => ?_) (fun b hb s hsc => ?_)⟩
  · obtain ⟨val, hval, hheard⟩ := h4 _ hu
    have heq := heard_reachable (hr a (hin _ hu)) hheard
    simp only at hval heq
    rcases hval with ⟨_, e⟩ | ⟨m, u1, hg, hv1, hnear⟩
    · rw [e] at heq; cases heq
    · rw [hv1] at heq; cases heq
      rcases hnear with ⟨e, _⟩ | ⟨c, hc, rfl, _, hbest⟩
      · exact absurd e hne
      · obtain ⟨i, hi⟩ := List.getElem?_of_mem hc
        refine ⟨⟨i, m, hg, c.vec, by rw [List.getElem?_map, hi]; rfl, hs, hcmp⟩, ?_⟩
        rintro t ⟨j, m1, hg1, x, hx, ht, hct⟩
        rw [hg] at hg1; cases hg1
        obtain ⟨c', hc', rfl⟩ := List.mem_map.1 (List.mem_of_getElem? hx)
        exact hbest c' hc' s t hs ht hct
  · obtain ⟨i, m, hg, x, hx, hsx, hcmp⟩ := hsc
    obtain ⟨y, hy⟩ := hex b hb
    obtain ⟨val, hval, hheard⟩ := h4 _ hy
    have heq := heard_reachable (hr b hb) hheard
    simp only at hval heq
    rcases hval with ⟨e, _⟩ | ⟨m1, u1, hg1, hv1, hnear⟩
    · rw [hg] at e; cases e
    · rw [hg] at hg1; cases hg1
      rw [heq, hv1] at hy
      obtain ⟨c, hc, rfl⟩ := List.mem_map.1 (List.mem_of_getElem? hx)
      obtain ⟨k, _, hk⟩ := lookup_of_get hw hg
      rcases hnear with ⟨_, hno⟩ | ⟨c', hc', rfl, hcand, _⟩
      · have := hno c hc
        rw [isCandidate_iff_score.2 ⟨s, hsx, hcmp⟩] at this; cases this
      · obtain ⟨t, ht1, ht2⟩ := isCandidate_iff_score.1 hcand
        refine ⟨_, t, hy, fun e => hD ?_, ht1, ht2⟩
        rw [← (hw.mok hk).len, ← ((hw.mok hk).wf.dim c' hc').1, e]; rfl

/-- Which nodes a fast query asks, and in which order. -/
theorem wp_bestFast_ranked {env : Env} (he : EnvOK env) {D : NS → Nat} {w : World F} (hw : WorldOK D w) {addrs : List Addr} (hnd : addrs.Nodup)
    (hr : ∀ a ∈ addrs, Reachable env a) (ns : NS) (hD : D ns ≠ 0) (v : List F) (hap : Apart (ShownScore w ns v false) addrs) (p : Nat) :
    Go.wp ((Nodes.bestFitNodesFast env knnCos addrs ns v).run w) (fun r _ => r.2 = w ∧ RankedBy (ShownScore w ns v false) addrs r.1) p := by
  refine Go.wp_mono (wp_bestFast he hw knnCos_searchesBest addrs ns v p) (fun r p1 h => ?_)
  obtain ⟨_, h2, answers, h3, h4, h5⟩ := h
  obtain ⟨hin, hex⟩ := mem_answers h3
  refine ⟨h2, ranked_of_bestFit hnd h3 h5 hap (fun a u s hu hne hs hcmp => ?_) (fun b hb s hsc => ?_)⟩
  · have heq := heard_reachable (hr a (hin _ hu)) (h4 _ hu)
    simp only at heq
    cases hg : w.get a ns with
    | none => rw [hg] at heq; cases heq
    | some m =>
      rw [hg] at heq; cases heq
      refine ⟨⟨m, hg, hs, hcmp⟩, ?_⟩
      rintro t ⟨m1, hg1, ht, _⟩ hbet
      rw [hg] at hg1; cases hg1
      rw [hs] at ht; cases ht
      exact better_asymm hbet hbet
  · obtain ⟨m, hg, hsx, hcmp⟩ := hsc
    obtain ⟨y, hy⟩ := hex b hb
    have heq := heard_reachable (hr b hb) (h4 _ hy)
    simp only [hg, Option.map_some] at heq
    rw [heq] at hy
    obtain ⟨k, _, hk⟩ := lookup_of_get hw hg
    refine ⟨_, s, hy, fun e => hD ?_, hsx, hcmp⟩
    rw [← (hw.mok hk).len, e]; rfl

/-- The whole query: its answer is determined by the ranking and by what the nodes hold. -/
theorem wp_query_value {env : Env} (he : EnvOK env) {D : NS → Nat} {w : World F} (hw : WorldOK D w) {addrs : List Addr} (hnd : addrs.Nodup)
    (hr : ∀ a ∈ addrs, Reachable env a) (o : Api.QueryOpts F) (hD : D o.ns ≠ 0) {n : Nat} (hn : o.n = n)
    (hap : Apart (ShownScore w o.ns o.vec o.accurate) addrs) (hl : ∀ d ∈ storedAt w addrs o.ns, ∀ q, ¬ Dead (env.tk q) d) (p : Nat) :
    Go.wp ((Api.queryDataPoint env addrs (some o)).run w) (fun r _ => ∃ as, RankedBy (ShownScore w o.ns o.vec o.accurate) addrs as ∧
      r.1 = (200, Api.dataPointsToDPs (collect (nodeAnswer w o.ns o.vec) n as))) p := by
  have key : ∀ (sel : Prog F (List Addr)), Go.wp (sel.run w) (fun r _ => r.2 = w ∧ RankedBy (ShownScore w o.ns o.vec o.accurate) addrs r.1) p →
      Go.wp ((do let as ← sel; Dps.getDataPoints env as o.ns o.vec o.n o.drain : Prog F (List (DataPoint F))).run w) (fun r _ =>
        ∃ as, RankedBy (ShownScore w o.ns o.vec o.accurate) addrs as ∧ r.1 = collect (nodeAnswer w o.ns o.vec) n as) p := by
    intro sel h
    rw [run_bind, Go.wp_bind]
    refine Go.wp_mono h (fun r p1 hr1 => ?_)
    obtain ⟨h2, h3⟩ := hr1
    rw [h2, hn]
    unfold Dps.getDataPoints
    simp only [run_bind, Go.wp_bind, run_loc, Go.wp_checkMake]
    refine ⟨by omega, ?_⟩
    rw [Go.wp_pure]
    refine Go.wp_mono (wp_getFrom_answer he.clock o.ns o.vec n o.drain w r.1 w [] p1 hw h3.nodup (by simp) (fun a ha => hr a ((h3.mem a).1 ha).1)
      (fun _ _ => rfl) (fun a ha m hg d hd q => hl d (stored_storedAt ((h3.mem a).1 ha).1 hg hd) q)) (fun q p2 hq => ⟨r.1, h3, by simpa using hq⟩)
  unfold Api.queryDataPoint
  simp only [run_bind, Go.wp_bind]
  cases ha : o.accurate with
  | true =>
    rw [ha] at key hap
    simp only [if_true]
    refine Go.wp_mono (key _ (wp_bestAccurate_ranked he hw hnd hr o.ns hD o.vec hap p)) (fun r p1 h => ?_)
    rw [run_pure, Go.wp_pure]
    obtain ⟨as, h1, h2⟩ := h
    exact ⟨as, h1, by rw [h2]⟩
  | false =>
    rw [ha] at key hap
    simp only [Bool.false_eq_true, if_false]
    refine Go.wp_mono (key _ (wp_bestFast_ranked he hw hnd hr o.ns hD o.vec hap p)) (fun r p1 h => ?_)
    rw [run_pure, Go.wp_pure]
    obtain ⟨as, h1, h2⟩ := h
    exact ⟨as, h1, by rw [h2]⟩

theorem holdSame_get {addrs : List Addr} {ns : NS} {accurate : Bool} {w w' : World F} (h : HoldSame addrs ns accurate w w') {a : Addr} (ha : a ∈ addrs) :
    (w.get a ns = none ∧ w'.get a ns = none) ∨
    ∃ m m', w.get a ns = some m ∧ w'.get a ns = some m' ∧ (∃ u, m' = { m with vec := u }) ∧ (accurate = false → m' = m) := by
  have h1 := h a ha
  cases accurate with
  | false =>
    simp only [Bool.false_eq_true, if_false] at h1
    rw [h1]
    cases w.get a ns with
    | none => exact .inl ⟨rfl, rfl⟩
    | some m => exact .inr ⟨m, m, rfl, rfl, ⟨m.vec, rfl⟩, fun _ => rfl⟩
  | true =>
    simp only [if_true] at h1
    cases hg : w.get a ns with
    | none => rw [hg] at h1; cases hg' : w'.get a ns with
      | none => exact .inl ⟨rfl, rfl⟩
      | some m' => rw [hg'] at h1; cases h1
    | some m => rw [hg] at h1; cases hg' : w'.get a ns with
      | none => rw [hg'] at h1; cases h1
      | some m' =>
        rw [hg'] at h1
        refine .inr ⟨m, m', rfl, rfl, ⟨m'.vec, ?_⟩, fun e => by cases e⟩
        obtain ⟨⟩ := m; obtain ⟨⟩ := m'
        simpa using h1

theorem holdSame_score {addrs : List Addr} {ns : NS} {accurate : Bool} {w w' : World F} (h : HoldSame addrs ns accurate w w') (v : List F) {a : Addr}
    (ha : a ∈ addrs) (s : F) : ShownScore w' ns v accurate a s ↔ ShownScore w ns v accurate a s := by
  rcases holdSame_get h ha with ⟨e1, e2⟩ | ⟨m, m', e1, e2, ⟨u, e3⟩, e4⟩
  · cases accurate <;> simp [ShownScore, ScoreAt, ScoreOf, e1, e2]
  · cases accurate with
    | false => rw [e4 rfl] at e2; simp [ShownScore, ScoreOf, e1, e2]
    | true => subst e3; simp [ShownScore, ScoreAt, e1, e2]

theorem holdSame_answer {addrs : List Addr} {ns : NS} {accurate : Bool} {w w' : World F} (h : HoldSame addrs ns accurate w w') (v : List F) {a : Addr}
    (ha : a ∈ addrs) (k : Nat) : nodeAnswer w' ns v k a = nodeAnswer w ns v k a := by
  rcases holdSame_get h ha with ⟨e1, e2⟩ | ⟨m, m', e1, e2, ⟨u, e3⟩, _⟩
  · simp [nodeAnswer, e1, e2]
  · subst e3; simp [nodeAnswer, e1, e2, Manager.answer]

theorem collect_congr {σ α : Type} {give give' : Nat → σ → List α} : ∀ {ss : List σ} (k : Nat), (∀ s ∈ ss, ∀ k, give k s = give' k s) →
    collect give k ss = collect give' k ss
  | [], _, _ => rfl
  | s :: ss, k, h => by
    unfold collect
    rw [h s (by simp) k, collect_congr (ss := ss) _ (fun s' h' => h s' (by simp [h']))]

theorem leads_congr {sc sc' : Addr → F → Prop} {a b : Addr} (ha : ∀ s, sc' a s ↔ sc a s) (hb : ∀ s, sc' b s ↔ sc b s) : Leads sc' a b ↔ Leads sc a b := by
  simp only [Leads, ha, hb]

theorem holdSame_stored {addrs : List Addr} {ns : NS} {accurate : Bool} {w w' : World F} (h : HoldSame addrs ns accurate w w') :
    storedAt w' addrs ns = storedAt w addrs ns := by
  unfold storedAt
  refine List.flatMap_congr (fun a ha => ?_)
  rcases holdSame_get h ha with ⟨e1, e2⟩ | ⟨m, m', e1, e2, ⟨u, e3⟩, _⟩
  · rw [e1, e2]
  · subst e3; rw [e1, e2]; rfl

/-- C133, what holds: no message is lost, nothing expires, and of any two nodes one is more similar to the query than the other. Then a query of nodes
that hold the same has the same answer, at whatever time it is asked, in whatever order the vectors arrive, and whether it drains or not. For accurate
queries the vectors of the managers need not be the same. -/
theorem C133_partial {env : Env} (he : EnvOK env) {D : NS → Nat} {w w' : World F} (hw : WorldOK D w) (hw' : WorldOK D w') {addrs : List Addr}
    (hnd : addrs.Nodup) (hr : ∀ a ∈ addrs, Reachable env a) (ns : NS) (hD : D ns ≠ 0) (accurate : Bool) (v : List F) (n : Nat)
    (hap : Apart (ShownScore w ns v accurate) addrs) (hl : ∀ d ∈ storedAt w addrs ns, ∀ q, ¬ Dead (env.tk q) d) (hs : HoldSame addrs ns accurate w w')
    (drain drain' : Bool) (p p' : Nat) :
    ∃ out w1 p1 w2 p2, (Api.queryDataPoint env addrs (some ⟨ns, accurate, v, n, drain⟩)).run w p = .ok (((200, out), w1), p1) ∧
      (Api.queryDataPoint env addrs (some ⟨ns, accurate, v, n, drain'⟩)).run w' p' = .ok (((200, out), w2), p2) := by
  have hsc := fun {a} (ha : a ∈ addrs) => holdSame_score hs v ha
  have hap' : Apart (ShownScore w' ns v accurate) addrs := by
    intro a ha b hb hne h1 h2
    rw [leads_congr (hsc ha) (hsc hb), leads_congr (hsc hb) (hsc ha)]
    simp only [hsc ha] at h1
    simp only [hsc hb] at h2
    exact hap a ha b hb hne h1 h2
  obtain ⟨r, p1, h1, as, h2, h3⟩ := Go.wp_iff.1 (wp_query_value he hw hnd hr ⟨ns, accurate, v, n, drain⟩ hD rfl hap hl p)
  obtain ⟨r', p2, h1', as', h2', h3'⟩ := Go.wp_iff.1 (wp_query_value he hw' hnd hr ⟨ns, accurate, v, n, drain'⟩ hD rfl hap'
    (by rw [holdSame_stored hs]; exact hl) p')
  have hrank : RankedBy (ShownScore w ns v accurate) addrs as' := by
    refine ⟨h2'.nodup, fun a => ?_, List.Pairwise.imp_of_mem (fun {a b} ha hb h => ?_) h2'.sorted⟩
    · rw [h2'.mem]
      refine and_congr_right (fun ha => ?_)
      simp only [hsc ha]
    · exact (leads_congr (hsc ((h2'.mem a).1 ha).1) (hsc ((h2'.mem b).1 hb).1)).1 h
  have has := ranked_unique h2 hrank
  subst has
  refine ⟨Api.dataPointsToDPs (collect (nodeAnswer w ns v) n as), r.2, p1, r'.2, p2, ?_, ?_⟩
  · rw [h1, ← h3]
  · rw [h1', ← collect_congr (give := nodeAnswer w' ns v) n (fun a ha k => holdSame_answer hs v ((h2.mem a).1 ha).1 k), ← h3']

theorem wp_query_ok {env : Env} (he : EnvOK env) {D : NS → Nat} {w : World F} (hw : WorldOK D w) (o : Api.QueryOpts F) {n : Nat} (hn : o.n = n)
    (addrs : List Addr) (p : Nat) : Go.wp ((Api.queryDataPoint env addrs (some o)).run w) (fun r _ => WorldOK D r.2) p := by
  unfold Api.queryDataPoint
  simp only [run_bind, Go.wp_bind]
  cases ha : o.accurate with
  | true =>
    simp only [if_true]
    refine Go.wp_mono (wp_getAccurate he hw knnCos_searchesBest o.ns o.vec (by omega) o.drain addrs p) (fun r p1 h => ?_)
    rw [run_pure, Go.wp_pure]
    obtain ⟨_, _, _, _, _, h⟩ := h
    exact h.ok
  | false =>
    simp only [Bool.false_eq_true, if_false]
    refine Go.wp_mono (wp_getFast he hw knnCos_searchesBest o.ns o.vec (by omega) o.drain addrs p) (fun r p1 h => ?_)
    rw [run_pure, Go.wp_pure]
    obtain ⟨_, _, _, _, _, h⟩ := h
    exact h.ok

theorem query_twice {env : Env} (he : EnvOK env) {D : NS → Nat} {w : World F} (hw : WorldOK D w) {addrs : List Addr}
    (hnd : addrs.Nodup) (hr : ∀ a ∈ addrs, Reachable env a) (ns : NS) (hD : D ns ≠ 0) (accurate : Bool) (v : List F) (n : Nat)
    (hap : Apart (ShownScore w ns v accurate) addrs) (hl : ∀ d ∈ storedAt w addrs ns, ∀ q, ¬ Dead (env.tk q) d)
    (hsame : ∀ w', AllTouched w w' → HoldSame addrs ns accurate w w') (drain : Bool) (p p' : Nat) :
    ∃ out w1 p1 w2 p2, (Api.queryDataPoint env addrs (some ⟨ns, accurate, v, n, false⟩)).run w p = .ok (((200, out), w1), p1) ∧
      (Api.queryDataPoint env addrs (some ⟨ns, accurate, v, n, drain⟩)).run w1 p' = .ok (((200, out), w2), p2) := by
  obtain ⟨r, p1, h0, ⟨_, _, h1⟩, h2⟩ := Go.wp_iff.1 (Go.wp_and (wp_query_read he hw ⟨ns, accurate, v, n, false⟩ rfl rfl addrs p)
    (wp_query_ok he hw ⟨ns, accurate, v, n, false⟩ rfl addrs p))
  have hs := hsame r.2 (h1 (fun d hd => hl d hd p1))
  obtain ⟨out, w1, q1, w2, q2, e1, e2⟩ := C133_partial he hw h2 hnd hr ns hD accurate v n hap hl hs false drain p p'
  have e3 := h0.symm.trans e1
  have e4 : r = ((200, out), w1) := congrArg (fun x => x.1) (Except.ok.inj e3)
  rw [e4] at h0 e2
  exact ⟨out, w1, p1, w2, q2, h0, e2⟩

/-- C133 and C129: an accurate query without `drain`, asked again at any time, has the same answer, and so has the query that then drains. This
is so in float64 too. -/
theorem C133_twice_partial {env : Env} (he : EnvOK env) {D : NS → Nat} {w : World F} (hw : WorldOK D w) {addrs : List Addr}
    (hnd : addrs.Nodup) (hr : ∀ a ∈ addrs, Reachable env a) (ns : NS) (hD : D ns ≠ 0) (v : List F) (n : Nat)
    (hap : Apart (fun a s => ∃ i, ScoreAt w ns v a i s) addrs) (hl : ∀ d ∈ storedAt w addrs ns, ∀ q, ¬ Dead (env.tk q) d) (drain : Bool) (p p' : Nat) :
    ∃ out w1 p1 w2 p2, (Api.queryDataPoint env addrs (some ⟨ns, true, v, n, false⟩)).run w p = .ok (((200, out), w1), p1) ∧
      (Api.queryDataPoint env addrs (some ⟨ns, true, v, n, drain⟩)).run w1 p' = .ok (((200, out), w2), p2) := by
  refine query_twice he hw hnd hr ns hD true v n hap hl (fun w' ht a _ => ?_) drain p p'
  simp only [if_true]
  rcases ht a ns with ⟨e1, e2⟩ | ⟨m, m', e1, e2, e3⟩
  · rw [e1, e2]
  · obtain ⟨u, rfl⟩ := e3.vec
    rw [e1, e2]
    rfl

/-- The same for fast queries in exact arithmetic. In float64 it is false: `C129_refuted`. -/
theorem C133_twice_exact_partial {env : Env} (he : EnvOK env) {D : NS → Nat} {w : World ℝ} (hw : WorldOK D w) {addrs : List Addr}
    (hnd : addrs.Nodup) (hr : ∀ a ∈ addrs, Reachable env a) (ns : NS) (hD : D ns ≠ 0) (v : List ℝ) (n : Nat)
    (hap : Apart (ScoreOf w ns v) addrs) (hl : ∀ d ∈ storedAt w addrs ns, ∀ q, ¬ Dead (env.tk q) d) (drain : Bool) (p p' : Nat) :
    ∃ out w1 p1 w2 p2, (Api.queryDataPoint env addrs (some ⟨ns, false, v, n, false⟩)).run w p = .ok (((200, out), w1), p1) ∧
      (Api.queryDataPoint env addrs (some ⟨ns, false, v, n, drain⟩)).run w1 p' = .ok (((200, out), w2), p2) := by
  refine query_twice he hw hnd hr ns hD false v n hap hl (fun w' ht a _ => ?_) drain p p'
  simp only [Bool.false_eq_true, if_false]
  rcases ht a ns with ⟨e1, e2⟩ | ⟨m, m', e1, e2, e3⟩
  · rw [e1, e2]
  · obtain ⟨i, _, hi⟩ := lookup_of_get hw e1
    rw [e1, e2, e3.real (fun c h => ((hw.mok hi).wf.dim c h).1)]

open ServerExample

namespace SameExample

/-- From the tenth moment on, what arrives from several nodes arrives in the opposite order. -/
def turning : Env := { env with perm := fun p n => if p < 10 then List.range n else (List.range n).reverse }

theorem turning_ok : EnvOK turning :=
  ⟨fun _ _ _ => Int.le_refl _, fun p n => by
    show (if p < 10 then List.range n else (List.range n).reverse).Perm _
    split
    · exact List.Perm.refl _
    · exact List.reverse_perm _, fun _ _ h => h⟩

/-- Two nodes whose vectors have the same direction. -/
def alike : World F64 := nodes2 (man [.ofInt 1, .ofInt 0] [cen [.ofInt 1, .ofInt 0] [dp 1 0]])
  (man [.ofInt 2, .ofInt 0] [cen [.ofInt 2, .ofInt 0] [dp 2 0]]) (man [.ofInt 3, .ofInt 4] [])

theorem alike_ok : WorldOK (fun _ => 2) alike :=
  nodes2_ok (man_mok rfl (by simp [cen, dp]) (by simp [cen])) (man_mok rfl (by simp [cen, dp]) (by simp [cen]))
    (man_mok rfl (by simp) (by simp))

/-- Two nodes of which one is more similar to (1,0). -/
def unlike : World F64 := nodes2 (man [.ofInt 0, .ofInt 1] [cen [.ofInt 0, .ofInt 1] [dp 0 1]])
  (man [.ofInt 2, .ofInt 0] [cen [.ofInt 2, .ofInt 0] [dp 2 0]]) (man [.ofInt 3, .ofInt 4] [])

theorem unlike_ok : WorldOK (fun _ => 2) unlike :=
  nodes2_ok (man_mok rfl (by simp [cen, dp]) (by simp [cen])) (man_mok rfl (by simp [cen, dp]) (by simp [cen]))
    (man_mok rfl (by simp) (by simp))

end SameExample
open SameExample

set_option synthInstance.maxSize 1000 in
/-- C133 is false of the code: two nodes are equally similar to the query. The same query is asked twice; the answers of the nodes arrive in
another order the second time, and the answer is another one. The first is (1,0), the second (2,0). Nothing has changed at the nodes, no message
is lost, and nothing expires. -/
theorem C133_refuted (accurate : Bool) : ∃ r p', (do
      let x ← (Api.queryDataPoint turning [1, 2] (some ⟨7, accurate, [.ofInt 1, .ofInt 0], 1, false⟩)).run alike
      let y ← (Api.queryDataPoint turning [1, 2] (some ⟨7, accurate, [.ofInt 1, .ofInt 0], 1, false⟩)).run x.2
      pure (x.1, y.1, at12 x.2) : Go ((Nat × List (Api.DP F64)) × (Nat × List (Api.DP F64)) × (List (DataPoint F64) × List (DataPoint F64)))) 0 = .ok (r, p') ∧
    r = ((200, Api.dataPointsToDPs [dp 1 0]), (200, Api.dataPointsToDPs [dp 2 0]), at12 alike) := by
  cases accurate
  · exact exists_of_run (f := id) (by decide +kernel)
  · exact exists_of_run (f := id) (by decide +kernel)

/-- In `unlike` one node is more similar to (1,0) than the other, whatever the order of arrival: the accurate query gives the same twice. -/
example (n : Nat) (drain : Bool) (p p' : Nat) : ∃ out w1 p1 w2 p2,
    (Api.queryDataPoint turning [1, 2] (some ⟨7, true, [F64.ofInt 1, .ofInt 0], n, false⟩)).run unlike p = .ok (((200, out), w1), p1) ∧
      (Api.queryDataPoint turning [1, 2] (some ⟨7, true, [F64.ofInt 1, .ofInt 0], n, drain⟩)).run w1 p' = .ok (((200, out), w2), p2) := by
  have s1 : cosineSimilarity [F64.ofInt 1, .ofInt 0] [.ofInt 0, .ofInt 1] = some (.ofInt 0) := by decide +kernel
  have s2 : cosineSimilarity [F64.ofInt 1, .ofInt 0] [.ofInt 2, .ofInt 0] = some (.ofInt 1) := by decide +kernel
  have c2 : Comparable false (F64.ofInt 1) := by decide +kernel
  have hb : Better false (F64.ofInt 1) (F64.ofInt 0) := by decide +kernel
  have h1 : ∀ t, (∃ i, ScoreAt unlike 7 [F64.ofInt 1, .ofInt 0] 1 i t) → t = .ofInt 0 := by
    rintro t ⟨i, m, hg, u, hu, ht, _⟩
    obtain rfl : man [.ofInt 0, .ofInt 1] [cen [.ofInt 0, .ofInt 1] [dp 0 1]] = m := Option.some.inj hg
    obtain rfl : u = [.ofInt 0, .ofInt 1] := by simpa [man, cen] using List.mem_of_getElem? hu
    exact Option.some.inj (ht.symm.trans s1)
  have h2 : ∃ i, ScoreAt unlike 7 [F64.ofInt 1, .ofInt 0] 2 i (.ofInt 1) :=
    ⟨0, man [.ofInt 2, .ofInt 0] [cen [.ofInt 2, .ofInt 0] [dp 2 0]], rfl, [.ofInt 2, .ofInt 0], rfl, s2, c2⟩
  have hlead : Leads (fun a s => ∃ i, ScoreAt unlike 7 [F64.ofInt 1, .ofInt 0] a i s) 2 1 := ⟨.ofInt 1, h2, fun t ht => by rw [h1 t ht]; exact hb⟩
  refine C133_twice_partial turning_ok unlike_ok (by simp) (fun _ _ => ⟨fun _ => rfl, fun _ => rfl⟩) 7 (by simp) [.ofInt 1, .ofInt 0] n ?_ ?_ drain p p'
  · intro a ha b hb hne _ _
    simp only [List.mem_cons, List.not_mem_nil, or_false] at ha hb
    rcases ha with rfl | rfl <;> rcases hb with rfl | rfl
    · exact absurd rfl hne
    · exact .inr hlead
    · exact .inl hlead
    · exact absurd rfl hne
  · intro d hd q
    have hst : storedAt unlike [1, 2] 7 = [dp 0 1, dp 2 0] := rfl
    rw [hst] at hd
    simp only [List.mem_cons, List.not_mem_nil, or_false] at hd
    rcases hd with rfl | rfl <;> exact fun h => absurd h.1 (by simp [dp])

/-- In exact arithmetic: managers with the vectors (0,1) and (2,0), a fast query for (1,0). -/
example (n : Nat) (drain : Bool) (p p' : Nat) :
    let w : World ℝ := nodes2 (man [0, 1] [cen [0, 1] [ApproxExample.rpt 0 1]]) (man [2, 0] [cen [2, 0] [ApproxExample.rpt 2 0]]) (man [3, 4] [])
    ∃ out w1 p1 w2 p2, (Api.queryDataPoint turning [1, 2] (some ⟨7, false, [(1 : ℝ), 0], n, false⟩)).run w p = .ok (((200, out), w1), p1) ∧
      (Api.queryDataPoint turning [1, 2] (some ⟨7, false, [(1 : ℝ), 0], n, drain⟩)).run w1 p' = .ok (((200, out), w2), p2) := by
  intro w
  have hnz : NonZero [(1 : ℝ), 0] := by simp [NonZero]
  have s1 : cosineSimilarity [(1 : ℝ), 0] [0, 1] = some 0 := by rw [cos_real (by simp) hnz]; simp [Spec.inner]
  have s2 : cosineSimilarity [(1 : ℝ), 0] [2, 0] = some 1 := by rw [cos_real (by simp) hnz]; simp [Spec.inner, len]
  have c2 : Comparable false (1 : ℝ) := by
    simp only [Comparable, Better, Bool.false_eq_true, if_false, rlt, rneg, rmaxFloat]
    exact lt_of_le_of_lt (neg_nonpos.2 (sub_nonneg.2 (pow_le_pow_right₀ (by norm_num : (1 : ℝ) ≤ 2) (by decide : 971 ≤ 1024)))) one_pos
  have h1 : ∀ t, ScoreOf w 7 [(1 : ℝ), 0] 1 t → t = 0 := by
    rintro t ⟨m, hg, ht, _⟩
    obtain rfl : man [0, 1] [cen [0, 1] [ApproxExample.rpt 0 1]] = m := Option.some.inj hg
    exact Option.some.inj (ht.symm.trans s1)
  have h2 : ScoreOf w 7 [(1 : ℝ), 0] 2 1 := ⟨man [2, 0] [cen [2, 0] [ApproxExample.rpt 2 0]], rfl, s2, c2⟩
  have hlead : Leads (ScoreOf w 7 [(1 : ℝ), 0]) 2 1 := ⟨1, h2, fun t ht => by rw [h1 t ht]; simp [Better]⟩
  have hw : WorldOK (fun _ => 2) w := nodes2_ok (man_mok rfl (by simp [cen, ApproxExample.rpt]) (by simp [cen]))
    (man_mok rfl (by simp [cen, ApproxExample.rpt]) (by simp [cen])) (man_mok rfl (by simp) (by simp))
  refine C133_twice_exact_partial turning_ok hw (by simp) (fun _ _ => ⟨fun _ => rfl, fun _ => rfl⟩) 7 (by simp) [1, 0] n ?_ ?_ drain p p'
  · intro a ha b hb hne _ _
    simp only [List.mem_cons, List.not_mem_nil, or_false] at ha hb
    rcases ha with rfl | rfl <;> rcases hb with rfl | rfl
    · exact absurd rfl hne
    · exact .inr hlead
    · exact .inl hlead
    · exact absurd rfl hne
  · intro d hd q
    have hst : storedAt w [1, 2] 7 = [ApproxExample.rpt 0 1, ApproxExample.rpt 2 0] := rfl
    rw [hst] at hd
    simp only [List.mem_cons, List.not_mem_nil, or_false] at hd
    rcases hd with rfl | rfl <;> exact fun h => absurd h.1 (by simp [ApproxExample.rpt])

end Trypo
