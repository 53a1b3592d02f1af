import Verif.Props.Sorted

/-!
# C140: answers after more has been stored
-/

namespace Trypo
open GoFloat Spec

variable {F : Type} [GoFloat F] [LawfulCmp F]

/-- The `i`-th best of more elements is not worse than the `i`-th best of fewer. -/
theorem takesBest_more {α : Type} {score : α → Option F} {asc : Bool} {k : Nat} {l l' part part' : List α} (hsub : l.Subperm l')
    (h : TakesBest score asc k l part) (h' : TakesBest score asc k l' part') :
    part.length ≤ part'.length ∧ ∀ (i : Nat) (d d' : α), part[i]? = some d → part'[i]? = some d' →
      ∀ s s', score d = some s → score d' = some s' → ¬ Better asc s s' := by
  obtain ⟨rest, p1, b1, n1⟩ := h
  obtain ⟨rest', p1', b1', n1'⟩ := h'
  have hc : candidates score asc l ≤ candidates score asc l' := hsub.countP_le _
  refine ⟨by rw [n1, n1']; omega, fun i d d' hd hd' s s' hs hs' hb => ?_⟩
  -- how many are better than `d'`
  let P : α → Bool := fun e => match score e with | none => false | some t => decide (Better asc t s')
  have hP : ∀ e, P e = true ↔ ∃ t, score e = some t ∧ Better asc t s' := fun e => by
    simp only [P]; split <;> simp_all
  have hcomp : ∃ s, score d' = some s ∧ Comparable asc s := b1'.comparable d' (List.mem_of_getElem? hd')
  rw [hs'] at hcomp
  obtain ⟨_, e, hs'c⟩ := hcomp
  cases e
  have lower : i + 1 ≤ part.countP P := by
    have hi : i < part.length := (List.getElem?_eq_some_iff.1 hd).1
    have : (part.take (i + 1)).countP P = (part.take (i + 1)).length := by
      rw [List.countP_eq_length]
      intro e he
      rw [hP]
      obtain ⟨j, hj, rfl⟩ := List.mem_iff_getElem.1 he
      rw [List.getElem_take]
      have hj' : j < part.length := by simp at hj; omega
      obtain ⟨t, ht, htc⟩ := b1.comparable part[j] (List.getElem_mem hj')
      refine ⟨t, ht, ?_⟩
      rcases Nat.lt_or_ge j i with hlt | hge
      · have := List.pairwise_iff_getElem.1 b1.sorted j i hj' hi hlt
        rw [(List.getElem?_eq_some_iff.1 hd).2] at this
        have hn := this t s ht hs
        rcases better_connected t hb (comparable_num htc) with h | h
        · exact absurd h hn
        · exact h
      · have : j = i := by simp at hj; omega
        subst this
        rw [(List.getElem?_eq_some_iff.1 hd).2, hs] at ht
        cases ht
        exact hb
    have h2 := (List.take_sublist (i + 1) part).countP_le (p := P)
    rw [this, List.length_take] at h2
    omega
  have upper : l'.countP P ≤ i := by
    rw [← p1'.countP_eq P, List.countP_append]
    have h0 : rest'.countP P = 0 := by
      rw [List.countP_eq_zero]
      intro e he hPe
      obtain ⟨t, ht, hbt⟩ := (hP e).1 hPe
      exact b1'.best d' (List.mem_of_getElem? hd') e he s' t hs' ht (better_trans hbt hs'c) hbt
    have h1 : (part'.drop i).countP P = 0 := by
      rw [List.countP_eq_zero]
      intro e he hPe
      obtain ⟨t, ht, hbt⟩ := (hP e).1 hPe
      obtain ⟨j, hj, rfl⟩ := List.mem_iff_getElem.1 he
      rw [List.getElem_drop] at ht
      have hi : i < part'.length := (List.getElem?_eq_some_iff.1 hd').1
      rcases Nat.eq_zero_or_pos j with rfl | hpos
      · rw [show part'[i + 0] = d' from (List.getElem?_eq_some_iff.1 hd').2, hs'] at ht
        cases ht
        exact better_irrefl _ _ hbt
      · have hij : i + j < part'.length := by simp at hj; omega
        have := List.pairwise_iff_getElem.1 b1'.sorted i (i + j) hi hij (by omega)
        rw [(List.getElem?_eq_some_iff.1 hd').2] at this
        exact this s' t hs' ht hbt
    have h2 : part'.countP P = (part'.take i).countP P + (part'.drop i).countP P := by
      rw [← List.countP_append, List.take_append_drop]
    have h3 : (part'.take i).countP P ≤ (part'.take i).length := List.countP_le_length
    rw [List.length_take] at h3
    omega
  have mid : part.countP P ≤ l'.countP P := by
    refine le_trans ?_ (hsub.countP_le P)
    rw [← p1.countP_eq P, List.countP_append]
    omega
  omega

/-- C140 in part, in any arithmetic: as long as the one node has one centroid. The same query to two states, of which the second holds what the first
holds and perhaps more: its answer is at least as long, and place by place its datapoints are at least as similar. -/
theorem C140_exact_partial {env : Env} (he : EnvOK env) {D D' : NS → Nat} {w w' : World F} (hw : WorldOK D w) (hw' : WorldOK D' w') (o : Api.QueryOpts F)
    (hv : o.vec ≠ []) {n : Nat} (hn : o.n = n) {a : Addr} (hr : Reachable env a)
    {m m' : Manager F} (hg : w.get a o.ns = some m) (hg' : w'.get a o.ns = some m') {c c' : Centroid F} (hc : m.centroids = [c]) (hc' : m'.centroids = [c'])
    (hmore : c.dps.Subperm c'.dps) (hs : sees o.vec c.vec = true) (hs' : sees o.vec c'.vec = true)
    (hf : o.accurate = false → sees o.vec m.vec = true ∧ sees o.vec m'.vec = true)
    (hl : ∀ d ∈ c'.dps, ∀ q, ¬ Dead (env.tk q) d) (p p' : Nat) :
    ∃ (out out' : List (DataPoint F)) (u u' : World F) (q q' : Nat),
      (Api.queryDataPoint env [a] (some o)).run w p = .ok (((200, out.map (fun d => ⟨d.vec, d.payload, d.expires, d.expireEnabled⟩)), u), q) ∧
      (Api.queryDataPoint env [a] (some o)).run w' p' = .ok (((200, out'.map (fun d => ⟨d.vec, d.payload, d.expires, d.expireEnabled⟩)), u'), q') ∧
      out.length ≤ out'.length ∧ ∀ (i : Nat) (d d' : DataPoint F), out[i]? = some d → out'[i]? = some d' →
        ∀ s s', cosineSimilarity o.vec d.vec = some s → cosineSimilarity o.vec d'.vec = some s' → lt s' s = false := by
  obtain ⟨out, u, q, h0, h1⟩ := C106_exact he hw o hv hn hr hg hc hs (fun h => (hf h).1) (fun d hd => hl d (hmore.subset hd)) p
  obtain ⟨out', u', q', h0', h1'⟩ := C106_exact he hw' o hv hn hr hg' hc' hs' (fun h => (hf h).2) hl p'
  have st : storedAt w [a] o.ns = c.dps := by rw [storedAt_one hg]; simp [stored, hc]
  have st' : storedAt w' [a] o.ns = c'.dps := by rw [storedAt_one hg']; simp [stored, hc']
  rw [st] at h1
  rw [st'] at h1'
  obtain ⟨k1, k2⟩ := takesBest_more hmore h1 h1'
  exact ⟨out, out', u, u', q, q', h0, h0', k1, fun i d d' hd hd' s s' e1 e2 => by simpa [Better] using k2 i d d' hd hd' s s' e1 e2⟩

/-- C140 in part, in exact arithmetic, for any number of nodes and centroids: the best answer of the state that holds more is at an angle that is at
most `2 ρ` larger than the angle of the best answer of the other, if in the state that holds more every datapoint is within the angle `ρ` of its
centroid (of its node for a fast query). -/
theorem C140_near_partial {env : Env} (he : EnvOK env) {D D' : NS → Nat} {w w' : World ℝ} (hw : WorldOK D w) (hw' : WorldOK D' w') (o : Api.QueryOpts ℝ)
    (hD : D o.ns ≠ 0) (hv : o.vec.length = D o.ns) (hv' : o.vec.length = D' o.ns) {n : Nat} (hn : o.n = n) (hpos : 0 < n) {addrs : List Addr}
    (hnd : addrs.Nodup) (hr : ∀ a ∈ addrs, Reachable env a) (hmore : ∀ d ∈ storedAt w addrs o.ns, d ∈ storedAt w' addrs o.ns)
    (hsome : storedAt w addrs o.ns ≠ []) (hl : ∀ d ∈ storedAt w' addrs o.ns, ∀ q, ¬ Dead (env.tk q) d)
    (hne : ∀ a ∈ addrs, ∀ m, w.get a o.ns = some m → (o.accurate = false → m.centroids ≠ []) ∧ ∀ c ∈ m.centroids, c.dps ≠ [])
    (hne' : ∀ a ∈ addrs, ∀ m, w'.get a o.ns = some m → (o.accurate = false → m.centroids ≠ []) ∧ ∀ c ∈ m.centroids, c.dps ≠ [])
    {ρ : ℝ} (hρ : ∀ a ∈ addrs, ∀ m, w'.get a o.ns = some m → ∀ c ∈ m.centroids, ∀ d ∈ c.dps,
      angle (if o.accurate then c.vec else m.vec) d.vec ≤ ρ) (p p' : Nat) :
    ∃ (d d' : DataPoint ℝ) (out out' : List (DataPoint ℝ)) (u u' : World ℝ) (q q' : Nat),
      (Api.queryDataPoint env addrs (some o)).run w p =
        .ok (((200, (d :: out).map (fun d => ⟨d.vec, d.payload, d.expires, d.expireEnabled⟩)), u), q) ∧
      (Api.queryDataPoint env addrs (some o)).run w' p' =
        .ok (((200, (d' :: out').map (fun d => ⟨d.vec, d.payload, d.expires, d.expireEnabled⟩)), u'), q') ∧
      angle o.vec d'.vec ≤ angle o.vec d.vec + 2 * ρ := by
  obtain ⟨out, u, q, h0, h1⟩ := C126_near_partial he hw o hD hv hn hpos hnd hr (fun d hd => hl d (hmore d hd)) hne (ρ := Real.pi)
    (fun _ _ _ _ _ _ _ _ => Real.arccos_le_pi _) p
  obtain ⟨out', u', q', h0', h1'⟩ := C126_near_partial he hw' o (by rw [← hv', hv]; exact hD) hv' hn hpos hnd hr hl hne' hρ p'
  obtain ⟨x, hx⟩ := List.exists_mem_of_ne_nil _ hsome
  obtain ⟨d, rest, rfl, hd, _⟩ := h1 x hx
  obtain ⟨d', rest', rfl, _, ha⟩ := h1' d (hmore d hd)
  exact ⟨d, d', rest, rest', u, u', q, q', h0, h0', ha⟩

open ServerExample ApproxExample

/-- C140 is violated: with (1,0), (0,10) and (1,1) stored, the best answer to a query for (1,0) is (1,0). After one more put, of (1,1), which makes
the node divide its centroid, it is (1,1). -/
theorem C140_refuted : (∃ r p, (session [put 1 0, put 0 10, put 1 1] ⟨7, true, [.ofInt 1, .ofInt 0], 1, false⟩).run start 0 = .ok (r, p) ∧
      looked r = ((200, [[F64.ofInt 1, .ofInt 0]]), [[F64.ofInt 1, .ofInt 0], [.ofInt 0, .ofInt 10], [.ofInt 1, .ofInt 1]])) ∧
    ∃ r p, (session [put 1 0, put 0 10, put 1 1, put 1 1] ⟨7, true, [.ofInt 1, .ofInt 0], 1, false⟩).run start 0 = .ok (r, p) ∧
      looked r = ((200, [[F64.ofInt 1, .ofInt 1]]), [[F64.ofInt 1, .ofInt 1], [.ofInt 1, .ofInt 1], [.ofInt 1, .ofInt 0], [.ofInt 0, .ofInt 10]]) :=
  ⟨exists_of_run (f := looked) (by decide +kernel), exists_of_run (f := looked) (by decide +kernel)⟩

namespace MoreExample

/-- As `two`, with one more datapoint at node 1. -/
def more : World F64 := nodes2 (man [.ofInt 1, .ofInt 0] [cen [.ofInt 1, .ofInt 0] [dp 2 0, dp 1 1, dp 1 0]])
  (man [.ofInt 0, .ofInt 1] [cen [.ofInt 0, .ofInt 1] [dp 0 1]]) (man [.ofInt 3, .ofInt 4] [cen [.ofInt 3, .ofInt 4] [dp 3 4]])

theorem more_ok : WorldOK (fun _ => 2) more :=
  nodes2_ok (man_mok rfl (by simp [cen, dp]) (by simp [cen])) (man_mok rfl (by simp [cen, dp]) (by simp [cen]))
    (man_mok rfl (by simp [cen, dp]) (by simp [cen]))

/-- One datapoint at node 1 and none elsewhere, in exact arithmetic. -/
noncomputable def few : World ℝ := nodes2 (man [1, 0] [cen [1, 0] [rpt 3 0]]) (man [0, 1] []) (man [3, 4] [])

theorem few_ok : WorldOK (fun _ => 2) few :=
  nodes2_ok (man_mok rfl (by simp [cen, rpt]) (by simp [cen])) (man_mok rfl (by simp) (by simp)) (man_mok rfl (by simp) (by simp))

/-- As `few`, with more datapoints at both nodes. -/
noncomputable def many : World ℝ := nodes2 (man [1, 1] [cen [1, 0] [rpt 5 0, rpt 3 0], cen [0, 1] [rpt 0 2]]) (man [1, 1] [cen [1, 1] [rpt 4 4]]) (man [3, 4] [])

theorem many_ok : WorldOK (fun _ => 2) many :=
  nodes2_ok (man_mok rfl (by simp [cen, rpt]) (by simp [cen])) (man_mok rfl (by simp [cen, rpt]) (by simp [cen])) (man_mok rfl (by simp) (by simp))

end MoreExample
open MoreExample

/-- C140: a query for (1,2) to `two` and to `more`. -/
example : ∃ (out out' : List (DataPoint F64)) (u u' : World F64) (q q' : Nat),
      (Api.queryDataPoint env [1] (some ⟨7, true, [F64.ofInt 1, .ofInt 2], 2, false⟩)).run two 0 =
        .ok (((200, out.map (fun d => ⟨d.vec, d.payload, d.expires, d.expireEnabled⟩)), u), q) ∧
      (Api.queryDataPoint env [1] (some ⟨7, true, [F64.ofInt 1, .ofInt 2], 2, false⟩)).run more 0 =
        .ok (((200, out'.map (fun d => ⟨d.vec, d.payload, d.expires, d.expireEnabled⟩)), u'), q') ∧
      out.length ≤ out'.length ∧ ∀ (i : Nat) (d d' : DataPoint F64), out[i]? = some d → out'[i]? = some d' →
        ∀ s s', cosineSimilarity [F64.ofInt 1, .ofInt 2] d.vec = some s → cosineSimilarity [F64.ofInt 1, .ofInt 2] d'.vec = some s' → lt s' s = false :=
  C140_exact_partial env_ok two_ok more_ok ⟨7, true, [F64.ofInt 1, .ofInt 2], 2, false⟩ (by simp) rfl ⟨fun _ => rfl, fun _ => rfl⟩ rfl rfl rfl rfl
    (by
      refine ⟨[dp 2 0, dp 1 0], ?_, ?_⟩
      · exact List.Perm.swap ..
      · exact (List.Sublist.refl _).cons _ |>.cons_cons _) (by decide +kernel) (by decide +kernel) (by simp) (by
      intro d hd q h
      have : ∀ d ∈ [dp 2 0, dp 1 1, dp 1 0], d.expireEnabled = false := by decide +kernel
      simp [Dead, this d hd] at h) 0 0

/-- C140: in `many` every datapoint is in the direction of its centroid. -/
example (x y : ℝ) (p p' : Nat) : ∃ (d d' : DataPoint ℝ) (out out' : List (DataPoint ℝ)) (u u' : World ℝ) (q q' : Nat),
      (Api.queryDataPoint env [1, 2] (some ⟨7, true, [x, y], 2, false⟩)).run few p =
        .ok (((200, (d :: out).map (fun d => ⟨d.vec, d.payload, d.expires, d.expireEnabled⟩)), u), q) ∧
      (Api.queryDataPoint env [1, 2] (some ⟨7, true, [x, y], 2, false⟩)).run many p' =
        .ok (((200, (d' :: out').map (fun d => ⟨d.vec, d.payload, d.expires, d.expireEnabled⟩)), u'), q') ∧
      angle [x, y] d'.vec ≤ angle [x, y] d.vec := by
  have f1 : few.get 1 7 = some (man [1, 0] [cen [1, 0] [rpt 3 0]]) := rfl
  have f2 : few.get 2 7 = some (man [0, 1] []) := rfl
  have h1 : many.get 1 7 = some (man [1, 1] [cen [1, 0] [rpt 5 0, rpt 3 0], cen [0, 1] [rpt 0 2]]) := rfl
  have h2 : many.get 2 7 = some (man [1, 1] [cen [1, 1] [rpt 4 4]]) := rfl
  have main := C140_near_partial env_ok few_ok many_ok ⟨7, true, [x, y], 2, false⟩ (by simp) rfl rfl (n := 2) rfl (by simp)
    (addrs := [1, 2]) (by simp) (fun a _ => ⟨fun _ => rfl, fun _ => rfl⟩)
    (by simp [storedAt, f1, f2, h1, h2, stored, man, cen]) (by simp [storedAt, f1, f2, stored, man, cen])
    (by
      intro d hd q
      have : d.expireEnabled = false := by
        simp [storedAt, h1, h2, stored, man, cen] at hd
        rcases hd with rfl | rfl | rfl | rfl <;> rfl
      simp [Dead, this])
    (by
      intro a ha m hg
      refine ⟨by simp, ?_⟩
      dsimp only at hg
      rcases (by simpa using ha : a = 1 ∨ a = 2) with rfl | rfl
      · rw [f1] at hg; cases hg; simp [man, cen]
      · rw [f2] at hg; cases hg; simp [man])
    (by
      intro a ha m hg
      refine ⟨by simp, ?_⟩
      dsimp only at hg
      rcases (by simpa using ha : a = 1 ∨ a = 2) with rfl | rfl
      · rw [h1] at hg; cases hg; simp [man, cen]
      · rw [h2] at hg; cases hg; simp [man, cen]) (ρ := 0)
    (by
      intro a ha m hg c hc d hd
      dsimp only at hg ⊢
      rw [if_pos rfl]
      have key : ∃ a b k : ℝ, 0 < k ∧ 0 < a ^ 2 + b ^ 2 ∧ c.vec = [a, b] ∧ d.vec = [k * a, k * b] := by
        rcases (by simpa using ha : a = 1 ∨ a = 2) with rfl | rfl
        · rw [h1] at hg; cases hg
          simp only [man, List.mem_cons, List.not_mem_nil, or_false] at hc
          rcases hc with rfl | rfl
          · simp only [cen, List.mem_cons, List.not_mem_nil, or_false] at hd
            rcases hd with rfl | rfl
            · exact ⟨1, 0, 5, by norm_num, by norm_num, rfl, by simp [rpt]⟩
            · exact ⟨1, 0, 3, by norm_num, by norm_num, rfl, by simp [rpt]⟩
          · simp only [cen, List.mem_cons, List.not_mem_nil, or_false] at hd
            subst hd
            exact ⟨0, 1, 2, by norm_num, by norm_num, rfl, by simp [rpt]⟩
        · rw [h2] at hg; cases hg
          simp only [man, List.mem_cons, List.not_mem_nil, or_false] at hc
          subst hc
          simp only [cen, List.mem_cons, List.not_mem_nil, or_false] at hd
          subst hd
          exact ⟨1, 1, 4, by norm_num, by norm_num, rfl, by simp [rpt]⟩
      obtain ⟨a, b, k, hk, hab, e1, e2⟩ := key
      rw [e1, e2]
      exact ray_angle a b k hk hab) p p'
  obtain ⟨d, d', out, out', u, u', q, q', e1, e2, e3⟩ := main
  exact ⟨d, d', out, out', u, u', q, q', e1, e2, by simpa using e3⟩

end Trypo
