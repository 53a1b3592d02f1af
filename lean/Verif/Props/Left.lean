import Verif.Props.Approx

/-!
# C126: what an answer leaves out
-/

namespace Trypo
open GoFloat Spec

/-- What a source gives: no more than it is asked for, and all it has if it gives less. -/
structure Yields {σ α : Type} (give : Nat → σ → List α → Prop) (has : σ → List α) : Prop where
  le : ∀ {k s part}, give k s part → part.length ≤ k
  sub : ∀ {k s part}, give k s part → part ⊆ has s
  all : ∀ {k s part}, give k s part → part.length < k → has s ⊆ part

namespace Yields
variable {σ α : Type} {give : Nat → σ → List α → Prop} {has : σ → List α}

theorem total (hy : Yields give has) {k : Nat} {ss : List σ} {out : List α} (h : InTurn give k ss out) : out.length ≤ k := by
  induction h with
  | none => simp
  | enough => simp
  | next h1 h2 ih => have := hy.le h1; simp only [List.length_append]; omega

theorem split (hy : Yields give has) {k : Nat} {ss : List σ} {out : List α} (h : InTurn give k ss out) {d : α} (hd : d ∈ out) :
    ∃ l1 s l2, ss = l1 ++ s :: l2 ∧ d ∈ has s ∧ ∀ s' ∈ l1, has s' ⊆ out := by
  induction h with
  | none => cases hd
  | enough => cases hd
  | @next k s ss part out h1 h2 ih =>
    rcases List.mem_append.1 hd with hd | hd
    · exact ⟨[], s, ss, rfl, hy.sub h1 hd, by simp⟩
    · obtain ⟨l1, s', l2, rfl, e1, e2⟩ := ih hd
      have hpos := List.length_pos_of_mem hd
      have := hy.total h2
      refine ⟨s :: l1, s', l2, rfl, e1, fun s'' hs => ?_⟩
      rcases List.mem_cons.1 hs with rfl | hs
      · exact fun x hx => List.mem_append_left _ (hy.all h1 (by omega) hx)
      · exact fun x hx => List.mem_append_right _ (e2 s'' hs hx)

theorem everything (hy : Yields give has) {k : Nat} {ss : List σ} {out : List α} (h : InTurn give k ss out) (hlt : out.length < k) :
    ∀ s ∈ ss, has s ⊆ out := by
  induction h with
  | none => simp
  | enough => simp at hlt
  | @next k s ss part out h1 h2 ih =>
    simp only [List.length_append] at hlt
    intro s' hs
    rcases List.mem_cons.1 hs with rfl | hs
    · exact fun x hx => List.mem_append_left _ (hy.all h1 (by omega) hx)
    · exact fun x hx => List.mem_append_right _ (ih (by omega) s' hs hx)

theorem many (hy : Yields give has) {k : Nat} {ss : List σ} {out : List α} (h : InTurn give k ss out) (hne : ∀ s ∈ ss, has s ≠ []) :
    min k ss.length ≤ out.length := by
  induction h with
  | none => simp
  | enough => simp
  | @next k s ss part out h1 h2 ih =>
    have := ih (fun s hs => hne s (by simp [hs]))
    simp only [List.length_append, List.length_cons]
    rcases Nat.lt_or_ge part.length k with hk | hk
    · obtain ⟨x, hx⟩ := List.exists_mem_of_ne_nil _ (hne s (by simp))
      have := List.length_pos_of_mem (hy.all h1 hk hx)
      omega
    · omega

theorem subset (hy : Yields give has) {k : Nat} {ss : List σ} {out : List α} (h : InTurn give k ss out) : out ⊆ ss.flatMap has := by
  intro d hd
  obtain ⟨l1, s, l2, rfl, e1, _⟩ := hy.split h hd
  exact List.mem_flatMap.2 ⟨s, by simp, e1⟩

end Yields

theorem candidates_all {v : List ℝ} {l : List (DataPoint ℝ)} (h : ∀ d ∈ l, d.vec.length = v.length) :
    candidates (fun d : DataPoint ℝ => cosineSimilarity v d.vec) false l = l.length := by
  refine List.countP_eq_length.2 (fun d hd => ?_)
  obtain ⟨s, h1, h2⟩ := sees_iff.1 (sees_real (h d hd))
  simp [h1, h2]

/-- A source that is a list of live datapoints of the dimension. -/
def ListOK (v : List ℝ) (tk : Nat → Int) (l : List (DataPoint ℝ)) : Prop := ∀ d ∈ l, d.vec.length = v.length ∧ ∀ q, ¬ Dead (tk q) d

theorem listGives_yields (v : List ℝ) (tk : Nat → Int) (p p' : Nat) :
    Yields (fun k l part => ListOK v tk l ∧ ListGives (fun d : DataPoint ℝ => cosineSimilarity v d.vec) (tk p) (tk p') k l part) id := by
  have key : ∀ {k : Nat} {l part : List (DataPoint ℝ)}, ListOK v tk l → ListGives (fun d : DataPoint ℝ => cosineSimilarity v d.vec) (tk p) (tk p') k l part →
      ∃ rest, (part ++ rest).Perm l ∧ part.length = min k l.length := by
    rintro k l part hl ⟨live, g1, rest, g2, _, g4⟩
    have hlive : live = l := by
      have f1 := g1.keeps
      have f2 := g1.drops
      rw [List.filter_eq_self.2 (fun d hd => by simpa using (hl d hd).2 _)] at f1 f2
      exact f2.antisymm f1
    subst hlive
    rw [candidates_all (fun d hd => (hl d hd).1)] at g4
    exact ⟨rest, g2, g4⟩
  refine ⟨fun {k s part} h => ?_, fun {k s part} h => ?_, fun {k s part} h hlt => ?_⟩
  · obtain ⟨rest, g2, g4⟩ := key h.1 h.2
    omega
  · obtain ⟨rest, g2, g4⟩ := key h.1 h.2
    exact fun x hx => g2.subset (List.mem_append_left _ hx)
  · obtain ⟨rest, g2, g4⟩ := key h.1 h.2
    have : rest = [] := List.eq_nil_of_length_eq_zero (by
      have := g2.length_eq
      rw [List.length_append] at this
      omega)
    subst this
    exact fun x hx => by simpa using g2.symm.subset hx

/-- Centroids without empty ones, with vectors of the dimension, and live datapoints. -/
structure Filled (v : List ℝ) (tk : Nat → Int) (m : Manager ℝ) : Prop where
  dim : ∀ c ∈ m.centroids, c.vec.length = v.length
  ok : ∀ c ∈ m.centroids, ListOK v tk c.dps
  ne : ∀ c ∈ m.centroids, c.dps ≠ []

section
variable {v : List ℝ} {tk : Nat → Int} {p p' n : Nat} {m : Manager ℝ} {part : List (DataPoint ℝ)}

/-- The lists that are asked. -/
theorem managerGives_inTurn (hf : Filled v tk m) (h : ManagerGives v (tk p) (tk p') n m part) :
    ∃ (near : List Nat) (cs : List (Centroid ℝ)), KBest (cosineSimilarity v) false (m.centroids.map (fun c => c.vec)) n near ∧
      near.map (fun i => m.centroids[i]?) = cs.map some ∧
      InTurn (fun k l part => ListOK v tk l ∧ ListGives (fun d : DataPoint ℝ => cosineSimilarity v d.vec) (tk p) (tk p') k l part) n
        (cs.map (fun c => c.dps)) part := by
  obtain ⟨near, cs, e1, e2, e3⟩ := h
  refine ⟨near, cs, e1, e2, e3.mono (fun k s part hs hg => ⟨?_, hg⟩)⟩
  obtain ⟨c, hc, rfl⟩ := List.mem_map.1 hs
  obtain ⟨i, _, hi⟩ := List.mem_map.1 (e2.symm ▸ List.mem_map.2 ⟨c, hc, rfl⟩ : some c ∈ near.map (fun i => m.centroids[i]?))
  exact hf.ok c (List.mem_of_getElem? hi)

theorem filled_score (hf : Filled v tk m) {j : Nat} {c : Centroid ℝ} (hj : m.centroids[j]? = some c) :
    ∃ s, HasScore (cosineSimilarity v) false (m.centroids.map (fun c => c.vec)) j s ∧ cosineSimilarity v c.vec = some s := by
  obtain ⟨s, h1, h2⟩ := sees_iff.1 (sees_real (hf.dim c (List.mem_of_getElem? hj)))
  exact ⟨s, ⟨c.vec, by simp [hj], h1, h2⟩, h1⟩

/-- What is left out is in the centroid of what is given, or in one that is not nearer. -/
theorem managerGives_left (hf : Filled v tk m) (h : ManagerGives v (tk p) (tk p') n m part) {d x : DataPoint ℝ} (hd : d ∈ part) (hx : x ∈ stored m)
    (hxo : x ∉ part) : ∃ c ∈ m.centroids, ∃ c' ∈ m.centroids, d ∈ c.dps ∧ x ∈ c'.dps ∧ angle v c.vec ≤ angle v c'.vec := by
  obtain ⟨near, cs, e1, e2, e3⟩ := managerGives_inTurn hf h
  obtain ⟨l1, s, l2, f1, f2, f3⟩ := (listGives_yields v tk p p').split e3 hd
  obtain ⟨cs1, cs2', hcs, rfl, g2⟩ := List.map_eq_append_iff.1 f1
  obtain ⟨c, cs2, rfl, rfl, rfl⟩ := List.map_eq_cons_iff.1 g2
  subst hcs
  rw [List.map_append, List.map_cons] at e2
  obtain ⟨near1, near2', rfl, k1, k2⟩ := List.map_eq_append_iff.1 e2
  obtain ⟨i, near2, rfl, hi, k3⟩ := List.map_eq_cons_iff.1 k2
  obtain ⟨cx, hcx, hxc⟩ := List.mem_flatMap.1 hx
  obtain ⟨j, hj⟩ := List.getElem?_of_mem hcx
  have hc := List.mem_of_getElem? hi
  refine ⟨c, hc, cx, hcx, f2, hxc, ?_⟩
  obtain ⟨sc, hs, hs'⟩ := filled_score hf hi
  obtain ⟨t, ht, ht'⟩ := filled_score hf hj
  refine angle_le_of_sim (hf.dim c hc) (hf.dim cx hcx) (fun a b ha hb => ?_)
  rw [hs'] at ha; rw [ht'] at hb
  cases ha; cases hb
  by_cases hmem : j ∈ near1 ++ i :: near2
  · rcases List.mem_append.1 hmem with hm | hm
    · exfalso
      have : some cx ∈ cs1.map some := by
        rw [← k1]; exact List.mem_map.2 ⟨j, hm, hj⟩
      have hc1 : cx ∈ cs1 := by simpa using this
      exact hxo (f3 _ (List.mem_map.2 ⟨_, hc1, rfl⟩) hxc)
    · rcases List.mem_cons.1 hm with rfl | hm
      · rw [hi] at hj; cases hj
        rw [hs'] at ht'; cases ht'
        simp [Better]
      · exact (List.pairwise_cons.1 (List.pairwise_append.1 e1.sorted).2.1).1 j hm sc t hs ht
  · exact e1.best i (by simp) j hmem sc t hs ht

theorem managerGives_le (hf : Filled v tk m) (h : ManagerGives v (tk p) (tk p') n m part) : part.length ≤ n := by
  obtain ⟨near, cs, e1, e2, e3⟩ := managerGives_inTurn hf h
  exact (listGives_yields v tk p p').total e3

theorem managerGives_sub (hf : Filled v tk m) (h : ManagerGives v (tk p) (tk p') n m part) : part ⊆ stored m := by
  obtain ⟨near, cs, e1, e2, e3⟩ := managerGives_inTurn hf h
  intro d hd
  obtain ⟨l, hl, hdl⟩ := List.mem_flatMap.1 ((listGives_yields v tk p p').subset e3 hd)
  obtain ⟨c, hc, rfl⟩ := List.mem_map.1 hl
  obtain ⟨i, _, hi⟩ := List.mem_map.1 (e2.symm ▸ List.mem_map.2 ⟨c, hc, rfl⟩ : some c ∈ near.map (fun i => m.centroids[i]?))
  exact List.mem_flatMap.2 ⟨c, List.mem_of_getElem? hi, hdl⟩

/-- A manager that gives less than it is asked for gives everything. -/
theorem managerGives_all (hf : Filled v tk m) (h : ManagerGives v (tk p) (tk p') n m part) (hlt : part.length < n) : stored m ⊆ part := by
  obtain ⟨near, cs, e1, e2, e3⟩ := managerGives_inTurn hf h
  have hy := listGives_yields v tk p p'
  have hcs : ∀ c ∈ cs, c ∈ m.centroids := by
    intro c hc
    obtain ⟨i, _, hi⟩ := List.mem_map.1 (e2.symm ▸ List.mem_map.2 ⟨c, hc, rfl⟩ : some c ∈ near.map (fun i => m.centroids[i]?))
    exact List.mem_of_getElem? hi
  have h1 := hy.many e3 (fun l hl => by
    obtain ⟨c, hc, rfl⟩ := List.mem_map.1 hl
    exact hf.ne c (hcs c hc))
  have hl1 : near.length = cs.length := by simpa using congrArg List.length e2
  have hl2 : near.length = min n m.centroids.length := by
    rw [e1.length, List.countP_eq_length.2 (fun u hu => ?_), List.length_map]
    obtain ⟨c, hc, rfl⟩ := List.mem_map.1 hu
    exact sees_real (hf.dim c hc)
  have hl3 : near.length = m.centroids.length := by
    rw [List.length_map] at h1
    omega
  have hnear : ∀ j < m.centroids.length, j ∈ near := by
    have hsub : near ⊆ List.range m.centroids.length := by
      intro i hi
      obtain ⟨s, u, hu, _⟩ := e1.valid i hi
      rw [List.getElem?_map] at hu
      obtain ⟨c, hc, _⟩ := Option.map_eq_some_iff.1 hu
      exact List.mem_range.2 (List.getElem?_eq_some_iff.1 hc).1
    have hperm := List.subperm_of_subset e1.nodup hsub |>.perm_of_length_le (by simp [hl3])
    exact fun j hj => hperm.symm.subset (List.mem_range.2 hj)
  intro x hx
  obtain ⟨cx, hcx, hxc⟩ := List.mem_flatMap.1 hx
  obtain ⟨j, hj⟩ := List.getElem?_of_mem hcx
  have : some cx ∈ cs.map some := by
    rw [← e2]; exact List.mem_map.2 ⟨j, hnear j (List.getElem?_eq_some_iff.1 hj).1, hj⟩
  have hc1 : cx ∈ cs := by simpa using this
  exact hy.everything e3 hlt _ (List.mem_map.2 ⟨_, hc1, rfl⟩) hxc

end

/-- C126 for `CentroidManager.KNNLookup`, in exact arithmetic: if every datapoint is within the angle `ρ` of the vector of its centroid, no
datapoint of the answer is at an angle of more than `2 ρ` above that of a datapoint that is not in it. For managers without empty centroids
and while nothing expires. -/
theorem C126_lookup_partial {tk : Nat → Int} (hm : MonoClock tk) {cm : Manager ℝ} (hc : ManagerOK cm) (hs : cm.knn = knnCos) {v : List ℝ}
    (hv : ∀ c ∈ cm.centroids, c.vec.length = v.length) (hne : ∀ c ∈ cm.centroids, c.dps ≠ []) (hl : ∀ d ∈ stored cm, ∀ q, ¬ Dead (tk q) d)
    {ρ : ℝ} (hρ : ∀ c ∈ cm.centroids, ∀ d ∈ c.dps, angle c.vec d.vec ≤ ρ) (k : Nat) (drain : Bool) (p : Nat) :
    ∃ out cm' p', cm.knnLookup tk v k drain p = .ok ((out, cm'), p') ∧ out ⊆ stored cm ∧
      ∀ d ∈ out, ∀ x ∈ stored cm, x ∉ out → angle v d.vec ≤ angle v x.vec + 2 * ρ := by
  obtain ⟨out, cm', p', h1, h2⟩ := C106_lookup hm hc hs v k drain p
  have hf : Filled v tk cm := ⟨hv, fun c hc' d hd => ⟨by rw [(hc.wf.dim c hc').2 d hd, hv c hc'], hl d (List.mem_flatMap.2 ⟨c, hc', hd⟩)⟩, hne⟩
  refine ⟨out, cm', p', h1, managerGives_sub hf h2, fun d hd x hx hxo => ?_⟩
  obtain ⟨c, hc1, c', hc1', hdc, hxc, hle⟩ := managerGives_left hf h2 hd hx hxo
  have t1 := angle_triangle (n := v.length) rfl (hv c hc1) (hf.ok c hc1 d hdc).1
  have t2 := angle_triangle (n := v.length) rfl (hf.ok c' hc1' x hxc).1 (hv c' hc1')
  rw [angle_comm' x.vec c'.vec (by rw [(hf.ok c' hc1' x hxc).1, hv c' hc1'])] at t2
  linarith [hρ c hc1 d hdc, hρ c' hc1' x hxc]

/-- Nodes that have the namespace give what their managers give. -/
theorem nodeGives_yields {env : Env} {v : List ℝ} {w : World ℝ} {ns : NS} (p p' : Nat) :
    Yields (fun k a part => (Reachable env a ∧ ∀ m, w.get a ns = some m → Filled v env.tk m) ∧
      NodeGives env v (env.tk p) (env.tk p') ns w k a part) (fun a => storedAt w [a] ns) := by
  have key : ∀ {k : Nat} {a : Addr} {part : List (DataPoint ℝ)}, ((Reachable env a ∧ ∀ m, w.get a ns = some m → Filled v env.tk m) ∧
      NodeGives env v (env.tk p) (env.tk p') ns w k a part) → (part = [] ∧ storedAt w [a] ns = []) ∨
      ∃ m, storedAt w [a] ns = stored m ∧ Filled v env.tk m ∧ ManagerGives v (env.tk p) (env.tk p') k m part := by
    rintro k a part ⟨⟨hr, hf⟩, hg⟩
    rcases hg with ⟨_, q, hq | hq⟩ | hg
    · rw [hr.1 q] at hq; cases hq
    · rw [hr.2 q] at hq; cases hq
    · cases hw : w.get a ns with
      | none => rw [hw] at hg; exact .inl ⟨hg, by simp [storedAt, hw]⟩
      | some m => rw [hw] at hg; exact .inr ⟨m, by simp [storedAt, hw, stored], hf m hw, hg⟩
  refine ⟨fun {k s part} h => ?_, fun {k s part} h => ?_, fun {k s part} h hlt => ?_⟩
  · rcases key h with ⟨rfl, _⟩ | ⟨m, _, hf, hg⟩
    · simp
    · exact managerGives_le hf hg
  · rcases key h with ⟨rfl, _⟩ | ⟨m, e, hf, hg⟩
    · simp
    · rw [e]; exact managerGives_sub hf hg
  · rcases key h with ⟨rfl, e⟩ | ⟨m, e, hf, hg⟩
    · rw [e]; simp
    · rw [e]; exact managerGives_all hf hg hlt

/-- C126 for fast queries, in exact arithmetic: if every datapoint is within the angle `ρ` of the vector of its node, no datapoint of the answer
is at an angle of more than `2 ρ` above that of a datapoint of the nodes that is not in it. For states without empty centroids, while nothing
expires and all nodes can be reached. -/
theorem C126_fast_partial {env : Env} (he : EnvOK env) {D : NS → Nat} {w : World ℝ} (hw : WorldOK D w) (o : Api.QueryOpts ℝ) (hD : D o.ns ≠ 0)
    (hfast : o.accurate = false) (hv : o.vec.length = D o.ns) {n : Nat} (hn : o.n = n) {addrs : List Addr} (hnd : addrs.Nodup)
    (hr : ∀ a ∈ addrs, Reachable env a) (hl : ∀ d ∈ storedAt w addrs o.ns, ∀ q, ¬ Dead (env.tk q) d)
    (hne : ∀ a ∈ addrs, ∀ m, w.get a o.ns = some m → ∀ c ∈ m.centroids, c.dps ≠ [])
    {ρ : ℝ} (hρ : ∀ a ∈ addrs, ∀ m, w.get a o.ns = some m → ∀ d ∈ stored m, angle m.vec d.vec ≤ ρ) (p : Nat) :
    ∃ (out : List (DataPoint ℝ)) (w' : World ℝ) (p' : Nat), (Api.queryDataPoint env addrs (some o)).run w p =
        .ok (((200, out.map (fun d => ⟨d.vec, d.payload, d.expires, d.expireEnabled⟩)), w'), p') ∧ out ⊆ storedAt w addrs o.ns ∧
      ∀ d ∈ out, ∀ x ∈ storedAt w addrs o.ns, x ∉ out → angle o.vec d.vec ≤ angle o.vec x.vec + 2 * ρ := by
  obtain ⟨out, w', p', h0, answers, asked, h1, h2, h3, h4⟩ := C106_query he hw o hn hnd p
  have hvne : o.vec ≠ [] := by intro h; rw [h] at hv; exact hD hv.symm
  have hdim : ∀ a m, w.get a o.ns = some m → m.vec.length = o.vec.length ∧ ∀ c ∈ m.centroids, c.vec.length = o.vec.length ∧
      ∀ d ∈ c.dps, d.vec.length = o.vec.length := by
    intro a m hg
    obtain ⟨i, _, hi⟩ := lookup_of_get hw hg
    have hok := hw.mok hi
    refine ⟨by rw [hok.len, hv], fun c hc => ⟨by rw [(hok.wf.dim c hc).1, hok.len, hv], fun d hd => ?_⟩⟩
    rw [(hok.wf.dim c hc).2 d hd, (hok.wf.dim c hc).1, hok.len, hv]
  have hst : ∀ {a : Addr} {x : DataPoint ℝ}, a ∈ addrs → x ∈ storedAt w [a] o.ns → x ∈ storedAt w addrs o.ns := by
    intro a x ha hx
    obtain ⟨a', ha', hx⟩ := List.mem_flatMap.1 hx
    rw [List.mem_singleton.1 ha'] at hx
    exact List.mem_flatMap.2 ⟨a, ha, hx⟩
  have hone : ∀ {a : Addr} {x : DataPoint ℝ}, x ∈ storedAt w [a] o.ns → ∃ m, w.get a o.ns = some m ∧ x ∈ stored m := by
    intro a x hx
    cases hg : w.get a o.ns with
    | none => simp [storedAt, hg] at hx
    | some m => exact ⟨m, rfl, by simpa [storedAt, hg, stored] using hx⟩
  have hback : ∀ {a : Addr} {x : DataPoint ℝ} {m : Manager ℝ}, w.get a o.ns = some m → x ∈ stored m → x ∈ storedAt w [a] o.ns := by
    intro a x m hg hx
    simpa [storedAt, hg, stored] using hx
  obtain ⟨chosen, hch, c2, c3⟩ := h3
  subst hch
  have hmemc : ∀ q ∈ chosen, q.1 ∈ addrs ∧ ∃ m, w.get q.1 o.ns = some m ∧ q.2 = m.vec := by
    intro q hq
    have hq' := (List.mem_filter.1 (c2.subset (List.mem_map.2 ⟨q, hq, rfl⟩)))
    have ha : q.1 ∈ addrs := h1.subset (List.mem_map.2 ⟨_, hq'.1, rfl⟩)
    refine ⟨ha, ?_⟩
    have := h2 _ hq'.1
    rw [hfast, if_neg (by simp)] at this
    have := heard_eq (hr _ ha) this
    simp only at this
    cases hg : w.get q.1 o.ns with
    | none => rw [hg] at this; cases this
    | some m => rw [hg] at this; exact ⟨m, rfl, by simpa using this⟩
  have hin : ∀ a ∈ addrs, ∀ m, w.get a o.ns = some m → (a, m.vec) ∈ chosen := by
    intro a ha m hg
    obtain ⟨r, hrm, rfl⟩ := List.mem_map.1 (h1.symm.subset ha)
    have := h2 r hrm
    rw [hfast, if_neg (by simp)] at this
    have hx := heard_eq (hr _ ha) this
    simp only [hg] at hx
    obtain ⟨c, hc, hce⟩ := List.mem_map.1 (c2.symm.subset (List.mem_filter.2 ⟨hrm, by
      simp only [hx, Option.map_some, Bool.and_eq_true, decide_eq_true_eq]
      exact ⟨fun h0 => hvne (List.eq_nil_of_length_eq_zero (by rw [← (hdim _ _ hg).1, h0]; rfl)), sees_real (hdim _ _ hg).1⟩⟩))
    have : c = (r.1, m.vec) := by
      obtain ⟨c1, c2⟩ := c
      have e1 := congrArg Prod.fst hce
      have e2 := congrArg Prod.snd hce
      simp only [hx, Option.map_some, Option.some.injEq] at e1 e2
      rw [e1, e2]
    exact this ▸ hc
  have hgive : InTurn (fun k a part => (Reachable env a ∧ ∀ m, w.get a o.ns = some m → Filled o.vec env.tk m) ∧
      NodeGives env o.vec (env.tk p) (env.tk p') o.ns w k a part) n (chosen.map (fun q => q.1)) out := by
    refine h4.mono (fun k a part ha hg => ⟨?_, hg⟩)
    obtain ⟨q, hq, rfl⟩ := List.mem_map.1 ha
    have ha := (hmemc q hq).1
    refine ⟨hr _ ha, fun m hg => ⟨fun c hc => ((hdim _ _ hg).2 c hc).1, fun c hc d hd => ⟨((hdim _ _ hg).2 c hc).2 d hd, ?_⟩, hne _ ha m hg⟩⟩
    exact hl d (hst ha (hback hg (List.mem_flatMap.2 ⟨c, hc, hd⟩)))
  have hy := nodeGives_yields (env := env) (v := o.vec) (w := w) (ns := o.ns) p p'
  refine ⟨out, w', p', h0, fun d hd => ?_, fun d hd x hx hxo => ?_⟩
  · obtain ⟨a, ha, hda⟩ := List.mem_flatMap.1 (hy.subset hgive hd)
    obtain ⟨q, hq, rfl⟩ := List.mem_map.1 ha
    exact hst (hmemc q hq).1 hda
  · obtain ⟨l1, a, l2, f1, f2, f3⟩ := hy.split hgive hd
    obtain ⟨ch1, ch2', rfl, rfl, g2⟩ := List.map_eq_append_iff.1 f1
    obtain ⟨q, ch2, rfl, rfl, rfl⟩ := List.map_eq_cons_iff.1 g2
    obtain ⟨m, hg, hdm⟩ := hone f2
    obtain ⟨hqa, m', hg', hq2⟩ := hmemc q (by simp)
    rw [hg] at hg'; cases hg'
    obtain ⟨ax, hax, hxa⟩ := List.mem_flatMap.1 hx
    have hxa : x ∈ storedAt w [ax] o.ns := List.mem_flatMap.2 ⟨ax, by simp, hxa⟩
    obtain ⟨mx, hgx, hxm⟩ := hone hxa
    have hle : angle o.vec m.vec ≤ angle o.vec mx.vec := by
      have hmx := hin ax hax mx hgx
      rcases List.mem_append.1 hmx with h | h
      · exact absurd (f3 ax (List.mem_map.2 ⟨_, h, rfl⟩) hxa) hxo
      · rcases List.mem_cons.1 h with h | h
        · rw [← h] at hg
          rw [hgx] at hg; cases hg
          exact le_refl _
        · have := (List.pairwise_cons.1 (List.pairwise_append.1 c3).2.1).1 _ h
          rw [hq2] at this
          exact angle_le_of_sim (hdim _ _ hg).1 (hdim _ _ hgx).1 this
    obtain ⟨c, hc, hdc⟩ := List.mem_flatMap.1 hdm
    obtain ⟨cx, hcx, hxc⟩ := List.mem_flatMap.1 hxm
    have t1 := angle_triangle (n := o.vec.length) rfl (hdim _ _ hg).1 (((hdim _ _ hg).2 c hc).2 d hdc)
    have t2 := angle_triangle (n := o.vec.length) rfl (((hdim _ _ hgx).2 cx hcx).2 x hxc) (hdim _ _ hgx).1
    rw [angle_comm' x.vec mx.vec (by rw [((hdim _ _ hgx).2 cx hcx).2 x hxc, (hdim _ _ hgx).1])] at t2
    linarith [hρ _ hqa m hg d hdm, hρ ax hax mx hgx x hxm]

open ServerExample ApproxExample

/-- C126: the manager of node 1 of `rays`, whose datapoints are in the direction of their centroids, asked for two of its three. -/
example (x y : ℝ) (drain : Bool) (p : Nat) : ∃ out cm' p', (man [1, 1] [cen [1, 0] [rpt 3 0, rpt 5 0], cen [0, 1] [rpt 0 2]]).knnLookup (fun _ => 0) [x, y] 2 drain p =
      .ok ((out, cm'), p') ∧ ∀ d ∈ out, ∀ e ∈ [rpt 3 0, rpt 5 0, rpt 0 2], e ∉ out → angle [x, y] d.vec ≤ angle [x, y] e.vec := by
  have hz : ∀ a b k : ℝ, 0 < k → 0 < a ^ 2 + b ^ 2 → angle [a, b] [k * a, k * b] ≤ 0 := ray_angle
  obtain ⟨out, cm', p', h1, h2, h3⟩ := C126_lookup_partial (tk := fun _ => 0) (fun _ _ _ => le_refl _)
    (cm := man [1, 1] [cen [1, 0] [rpt 3 0, rpt 5 0], cen [0, 1] [rpt 0 2]])
    (man_mok (n := 2) rfl (by simp [cen, rpt]) (by simp [cen])).1 rfl (v := [x, y]) (by simp [man, cen]) (by simp [man, cen])
    (by simp [stored, man, cen, rpt, Dead]) (ρ := 0) (by
      intro c hc d hd
      simp only [man, List.mem_cons, List.not_mem_nil, or_false] at hc
      rcases hc with rfl | rfl
      · simp only [cen, List.mem_cons, List.not_mem_nil, or_false] at hd
        rcases hd with rfl | rfl
        · simpa [cen, rpt] using hz 1 0 3 (by norm_num) (by norm_num)
        · simpa [cen, rpt] using hz 1 0 5 (by norm_num) (by norm_num)
      · simp only [cen, List.mem_cons, List.not_mem_nil, or_false] at hd
        subst hd
        simpa [cen, rpt] using hz 0 1 2 (by norm_num) (by norm_num)) 2 drain p
  refine ⟨out, cm', p', h1, fun d hd e he hne => ?_⟩
  have := h3 d hd e (by simpa [stored, man, cen] using he) hne
  simpa using this

namespace ApproxExample

/-- Two nodes that have one direction each. -/
noncomputable def axes : World ℝ := nodes2 (man [1, 0] [cen [1, 0] [rpt 3 0, rpt 5 0], cen [4, 0] [rpt 4 0]]) (man [0, 1] [cen [0, 2] [rpt 0 2, rpt 0 7]])
  (man [3, 4] [])

theorem axes_ok : WorldOK (fun _ => 2) axes :=
  nodes2_ok (man_mok rfl (by simp [cen, rpt]) (by simp [cen])) (man_mok rfl (by simp [cen, rpt]) (by simp [cen])) (man_mok rfl (by simp) (by simp))

end ApproxExample

/-- C126: a fast query for any number of the five datapoints of two nodes. -/
example (x y : ℝ) (n : Nat) (drain : Bool) (p : Nat) : ∃ (out : List (DataPoint ℝ)) (w' : World ℝ) (p' : Nat),
      (Api.queryDataPoint env [2, 1] (some ⟨7, false, [x, y], n, drain⟩)).run axes p =
        .ok (((200, out.map (fun d => ⟨d.vec, d.payload, d.expires, d.expireEnabled⟩)), w'), p') ∧
      ∀ d ∈ out, ∀ e ∈ storedAt axes [2, 1] 7, e ∉ out → angle [x, y] d.vec ≤ angle [x, y] e.vec := by
  have hz := ray_angle
  have h1 : axes.get 1 7 = some (man [1, 0] [cen [1, 0] [rpt 3 0, rpt 5 0], cen [4, 0] [rpt 4 0]]) := rfl
  have h2 : axes.get 2 7 = some (man [0, 1] [cen [0, 2] [rpt 0 2, rpt 0 7]]) := rfl
  have hns : (⟨7, false, [x, y], n, drain⟩ : Api.QueryOpts ℝ).ns = 7 := rfl
  have main := C126_fast_partial env_ok axes_ok ⟨7, false, [x, y], n, drain⟩ (by simp) rfl rfl (n := n) rfl
    (addrs := [2, 1]) (by simp) (fun a _ => ⟨fun _ => rfl, fun _ => rfl⟩) (ρ := 0) (p := p)
  suffices hs : _ ∧ _ ∧ _ by
    obtain ⟨out, w', p', e1, _, e2⟩ := main hs.1 hs.2.1 hs.2.2
    refine ⟨out, w', p', e1, fun d hd e he hne => ?_⟩
    simpa using e2 d hd e he hne
  refine ⟨?_, ?_, ?_⟩
  · intro d hd q
    have : d.expireEnabled = false := by
      simp [storedAt, h1, h2, stored, man, cen, rpt] at hd
      rcases hd with rfl | rfl | rfl | rfl | rfl <;> rfl
    simp [Dead, this]
  · intro a ha m hg
    rw [hns] at hg
    rcases (by simpa using ha : a = 2 ∨ a = 1) with rfl | rfl
    · rw [h2] at hg; cases hg; simp [man, cen]
    · rw [h1] at hg; cases hg; simp [man, cen]
  · intro a ha m hg d hd
    rw [hns] at hg
    rcases (by simpa using ha : a = 2 ∨ a = 1) with rfl | rfl
    · rw [h2] at hg; cases hg
      simp only [stored, man, cen, List.flatMap_cons, List.flatMap_nil, List.append_nil, List.mem_cons, List.not_mem_nil, or_false] at hd
      rcases hd with rfl | rfl
      · simpa [man, rpt] using hz 0 1 2 (by norm_num) (by norm_num)
      · simpa [man, rpt] using hz 0 1 7 (by norm_num) (by norm_num)
    · rw [h1] at hg; cases hg
      simp only [stored, man, cen, List.flatMap_cons, List.flatMap_nil, List.append_nil, List.cons_append, List.nil_append, List.mem_cons,
        List.not_mem_nil, or_false] at hd
      rcases hd with rfl | rfl | rfl
      · simpa [man, rpt] using hz 1 0 3 (by norm_num) (by norm_num)
      · simpa [man, rpt] using hz 1 0 5 (by norm_num) (by norm_num)
      · simpa [man, rpt] using hz 1 0 4 (by norm_num) (by norm_num)

end Trypo
