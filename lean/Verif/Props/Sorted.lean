import Verif.Props.Approx
import Verif.Props.Landing
import Verif.Props.Distribute

/-!
# C139: the order of the datapoints of an answer
-/

namespace Trypo
open GoFloat Spec

/-- What holds between any two elements of each part, and between elements of parts of different sources, holds in the whole. -/
theorem inTurn_pairwise {σ α : Type} {give : Nat → σ → List α → Prop} {R : α → α → Prop} {S : σ → α → Prop} {k : Nat} {ss : List σ} {out : List α}
    (h : InTurn give k ss out) (h1 : ∀ k, ∀ s ∈ ss, ∀ part, give k s part → part.Pairwise R ∧ ∀ x ∈ part, S s x)
    (h2 : ss.Pairwise fun s t => ∀ x y, S s x → S t y → R x y) : out.Pairwise R ∧ ∀ x ∈ out, ∃ s ∈ ss, S s x := by
  induction h with
  | none => exact ⟨.nil, by simp⟩
  | enough => exact ⟨.nil, by simp⟩
  | next hg hr ih =>
    rename_i k s ss part out
    rw [List.pairwise_cons] at h2
    obtain ⟨i1, i2⟩ := ih (fun k s hs => h1 k s (List.mem_cons_of_mem _ hs)) h2.2
    obtain ⟨g1, g2⟩ := h1 _ s (by simp) part hg
    refine ⟨List.pairwise_append.2 ⟨g1, i1, fun x hx y hy => ?_⟩, fun x hx => ?_⟩
    · obtain ⟨t, ht, hty⟩ := i2 y hy
      exact h2.1 t ht x y (g2 x hx) hty
    · rcases List.mem_append.1 hx with hx | hx
      · exact ⟨s, by simp, g2 x hx⟩
      · obtain ⟨t, ht, htx⟩ := i2 x hx
        exact ⟨t, List.mem_cons_of_mem _ ht, htx⟩

/-- The part of one centroid is in order and comes from it. -/
theorem listGives_sorted {v : List ℝ} {t t' : Int} {k : Nat} {l part : List (DataPoint ℝ)} (hd : ∀ d ∈ l, d.vec.length = v.length) {ρ : ℝ} (hρ : 0 ≤ ρ)
    (h : ListGives (fun d => cosineSimilarity v d.vec) t t' k l part) :
    part.Pairwise (fun d e => angle v d.vec ≤ angle v e.vec + ρ) ∧ ∀ d ∈ part, d ∈ l := by
  obtain ⟨live, h1, rest, h2, h3, _⟩ := h
  have hm : ∀ d ∈ part, d ∈ l := fun d hd => by
    have := h1.drops.subset (h2.subset (List.mem_append_left _ hd))
    exact (List.mem_filter.1 this).1
  refine ⟨(List.Pairwise.and_mem.1 h3.sorted).imp ?_, hm⟩
  rintro d e ⟨hd1, he1, h⟩
  have := angle_le_of_sim (hd d (hm d hd1)) (hd e (hm e he1)) h
  linarith

/-- What a manager gives is nearly in order. -/
theorem managerGives_sorted {v : List ℝ} {t t' : Int} {k : Nat} {m : Manager ℝ} {part : List (DataPoint ℝ)}
    (hdim : ∀ c ∈ m.centroids, c.vec.length = v.length ∧ ∀ d ∈ c.dps, d.vec.length = v.length) {ρ : ℝ} (h0 : 0 ≤ ρ)
    (hρ : ∀ c ∈ m.centroids, ∀ d ∈ c.dps, angle c.vec d.vec ≤ ρ) (h : ManagerGives v t t' k m part) :
    part.Pairwise (fun d e => angle v d.vec ≤ angle v e.vec + 2 * ρ) ∧ ∀ d ∈ part, ∃ c ∈ m.centroids, d ∈ c.dps := by
  obtain ⟨near, cs, e1, e2, e3⟩ := h
  have hcs : ∀ c ∈ cs, c ∈ m.centroids := fun c hc => by
    have : some c ∈ near.map fun i => m.centroids[i]? := by rw [e2]; exact List.mem_map.2 ⟨c, hc, rfl⟩
    obtain ⟨i, _, hi⟩ := List.mem_map.1 this
    exact List.mem_of_getElem? hi
  have hsort : cs.Pairwise fun c c' => angle v c.vec ≤ angle v c'.vec := by
    have hs := e1.sorted
    clear e1 e3
    induction near generalizing cs with
    | nil => cases cs with
      | nil => exact .nil
      | cons c cs => simp at e2
    | cons i near ih =>
      cases cs with
      | nil => simp at e2
      | cons c cs =>
        simp only [List.map_cons, List.cons.injEq] at e2
        rw [List.pairwise_cons] at hs ⊢
        refine ⟨fun c' hc' => ?_, ih cs e2.2 (fun c hc => hcs c (List.mem_cons_of_mem _ hc)) hs.2⟩
        have : some c' ∈ near.map fun i => m.centroids[i]? := by rw [e2.2]; exact List.mem_map.2 ⟨c', hc', rfl⟩
        obtain ⟨j, hj, hj'⟩ := List.mem_map.1 this
        have d1 := (hdim c (List.mem_of_getElem? e2.1)).1
        have d2 := (hdim c' (List.mem_of_getElem? hj')).1
        refine angle_le_of_sim d1 d2 fun s s' hs1 hs2 => hs.1 j hj s s' ⟨c.vec, by simp [e2.1], hs1, ?_⟩ ⟨c'.vec, by simp [hj'], hs2, ?_⟩
        · obtain ⟨x, f1, f2⟩ := sees_iff.1 (sees_real d1)
          rw [hs1] at f1; cases f1; exact f2
        · obtain ⟨x, f1, f2⟩ := sees_iff.1 (sees_real d2)
          rw [hs2] at f1; cases f1; exact f2
  have key := inTurn_pairwise (R := fun d e : DataPoint ℝ => angle v d.vec ≤ angle v e.vec + 2 * ρ) (S := fun l d => d ∈ l) e3
    (fun k l hl part hp => by
      obtain ⟨c, hc, rfl⟩ := List.mem_map.1 hl
      exact listGives_sorted (hdim c (hcs c hc)).2 (by linarith) hp)
    (List.pairwise_map.2 ((List.Pairwise.and_mem.1 hsort).imp (by
      rintro c c' ⟨hc, hc', h⟩ d e hd he
      have ⟨c1, c2⟩ := hdim c (hcs c hc)
      have ⟨c1', c2'⟩ := hdim c' (hcs c' hc')
      have t1 := angle_triangle (n := v.length) rfl c1 (c2 d hd)
      have t2 := angle_triangle (n := v.length) rfl (c2' e he) c1'
      rw [angle_comm' e.vec c'.vec (by rw [c2' e he, c1'])] at t2
      have := hρ c (hcs c hc) d hd
      have := hρ c' (hcs c' hc') e he
      linarith)))
  refine ⟨key.1, fun d hd => ?_⟩
  obtain ⟨l, hl, hdl⟩ := key.2 d hd
  obtain ⟨c, hc, rfl⟩ := List.mem_map.1 hl
  exact ⟨c, hcs c hc, hdl⟩

/-- C139 in part, in exact arithmetic: if every datapoint is within the angle `ρ` of the vectors by which it is found - of its centroid, and of its
node for a fast query or of all centroids of its node for an accurate one -, no datapoint of an answer is at an angle to the vector of the query
that is more than `2 ρ` larger than the angle of a datapoint that comes later. Whichever messages get lost and whatever expires, draining or not. -/
theorem C139_near_partial {env : Env} (he : EnvOK env) {D : NS → Nat} {w : World ℝ} (hw : WorldOK D w) (o : Api.QueryOpts ℝ)
    (hv : o.vec.length = D o.ns) {n : Nat} (hn : o.n = n) {addrs : List Addr} (hnd : addrs.Nodup) {ρ : ℝ} (h0 : 0 ≤ ρ)
    (hρ : ∀ a ∈ addrs, ∀ m, w.get a o.ns = some m → ∀ c ∈ m.centroids, ∀ d ∈ c.dps, angle c.vec d.vec ≤ ρ ∧
      if o.accurate then ∀ c' ∈ m.centroids, angle c'.vec d.vec ≤ ρ else angle m.vec d.vec ≤ ρ) (p : Nat) :
    ∃ (out : List (DataPoint ℝ)) (w' : World ℝ) (p' : Nat), (Api.queryDataPoint env addrs (some o)).run w p =
        .ok (((200, out.map (fun d => ⟨d.vec, d.payload, d.expires, d.expireEnabled⟩)), w'), p') ∧
      out.Pairwise fun d e => angle o.vec d.vec ≤ angle o.vec e.vec + 2 * ρ := by
  obtain ⟨out, w', p', e0, answers, asked, h1, h2, h3, h4⟩ := C106_query he hw o hn hnd p
  refine ⟨out, w', p', e0, ?_⟩
  have hdim : ∀ a m, w.get a o.ns = some m → m.vec.length = o.vec.length ∧ ∀ c ∈ m.centroids, c.vec.length = o.vec.length ∧
      ∀ d ∈ c.dps, d.vec.length = o.vec.length := by
    intro a m hg
    obtain ⟨i, _, hi⟩ := lookup_of_get hw hg
    have hok := hw.mok hi
    refine ⟨by rw [hok.len, hv], fun c hc => ⟨by rw [(hok.wf.dim c hc).1, hok.len, hv], fun d hd => ?_⟩⟩
    rw [(hok.wf.dim c hc).2 d hd, (hok.wf.dim c hc).1, hok.len, hv]
  obtain ⟨chosen, rfl, c2, c3⟩ := h3
  have hin : ∀ q ∈ chosen, (q.1, some q.2) ∈ answers ∧ q.2 ≠ [] ∧ sees o.vec q.2 = true := by
    intro q hq
    have := List.mem_filter.1 (c2.subset (List.mem_map.2 ⟨q, hq, rfl⟩))
    simp only [Bool.and_eq_true, decide_eq_true_eq] at this
    exact ⟨this.1, this.2.1, this.2.2⟩
  have haddr : ∀ q ∈ chosen, q.1 ∈ addrs := fun q hq => h1.subset (List.mem_map.2 ⟨_, (hin q hq).1, rfl⟩)
  have hlen : ∀ q ∈ chosen, q.2.length = o.vec.length := by
    intro q hq
    obtain ⟨s, hs, _⟩ := sees_iff.1 (hin q hq).2.2
    by_contra hne
    rw [(C04_cos_fails_iff o.vec q.2).2 (fun h => hne h.symm)] at hs
    cases hs
  -- every datapoint of a node is near the vector that the node gave
  have hnear : ∀ q ∈ chosen, ∀ m, w.get q.1 o.ns = some m → ∀ c ∈ m.centroids, ∀ d ∈ c.dps, angle q.2 d.vec ≤ ρ := by
    intro q hq m hg c hc d hd
    have hr := (hρ q.1 (haddr q hq) m hg c hc d hd).2
    have := h2 _ (hin q hq).1
    cases hacc : o.accurate with
    | true =>
      rw [hacc, if_pos rfl] at this hr
      obtain ⟨val, f1, f2⟩ := this
      have f2 := heard_some f2
      rcases f1 with ⟨f1, _⟩ | ⟨m', u, f1, rfl, f3⟩
      · rw [hg] at f1; cases f1
      · rw [hg] at f1; cases f1
        cases f2
        rcases f3 with ⟨f3, _⟩ | ⟨c', hc', f3, _⟩
        · exact absurd f3 (hin q hq).2.1
        · rw [f3]; exact hr c' hc'
    | false =>
      rw [hacc, if_neg (by simp)] at this hr
      have f2 := heard_some this
      simp only [hg, Option.map_some, Option.some.injEq] at f2
      rw [← f2]; exact hr
  have hsort : chosen.Pairwise fun q r => angle o.vec q.2 ≤ angle o.vec r.2 :=
    (List.Pairwise.and_mem.1 c3).imp (by
      rintro q r ⟨hq, hr, h⟩
      exact angle_le_of_sim (hlen q hq) (hlen r hr) h)
  refine (inTurn_pairwise (R := fun d e : DataPoint ℝ => angle o.vec d.vec ≤ angle o.vec e.vec + 2 * ρ)
    (S := fun a d => ∃ m, w.get a o.ns = some m ∧ ∃ c ∈ m.centroids, d ∈ c.dps) h4 (fun k a ha part hp => ?_) ?_).1
  · obtain ⟨q, hq, rfl⟩ := List.mem_map.1 ha
    rcases hp with ⟨rfl, _⟩ | hp
    · exact ⟨.nil, by simp⟩
    · cases hg : w.get q.1 o.ns with
      | none => simp only [hg] at hp; subst hp; exact ⟨.nil, by simp⟩
      | some m =>
        simp only [hg] at hp
        obtain ⟨g1, g2⟩ := managerGives_sorted (hdim _ _ hg).2 h0 (fun c hc d hd => (hρ q.1 (haddr q hq) m hg c hc d hd).1) hp
        exact ⟨g1, fun d hd => ⟨m, rfl, g2 d hd⟩⟩
  · rw [List.pairwise_map]
    refine (List.Pairwise.and_mem.1 hsort).imp ?_
    rintro q r ⟨hq, hr, h⟩ d e ⟨m, hg, c, hc, hd⟩ ⟨m', hg', c', hc', he'⟩
    have d1 := ((hdim _ _ hg).2 c hc).2 d hd
    have d2 := ((hdim _ _ hg').2 c' hc').2 e he'
    have t1 := angle_triangle (n := o.vec.length) rfl (hlen q hq) d1
    have t2 := angle_triangle (n := o.vec.length) rfl d2 (hlen r hr)
    rw [angle_comm' e.vec r.2 (by rw [d2, hlen r hr])] at t2
    have := hnear q hq m hg c hc d hd
    have := hnear r hr m' hg' c' hc' e he'
    linarith

/-- C139 in part, in any arithmetic: with one node that has one centroid, an answer is in order. -/
theorem C139_exact_partial {F : Type} [GoFloat F] [LawfulCmp F] {env : Env} (he : EnvOK env) {D : NS → Nat} {w : World F} (hw : WorldOK D w) (o : Api.QueryOpts F) (hv : o.vec ≠ []) {n : Nat}
    (hn : o.n = n) {a : Addr} (hr : Reachable env a) {m : Manager F} (hg : w.get a o.ns = some m) {c : Centroid F} (hc : m.centroids = [c])
    (hs : sees o.vec c.vec = true) (hs' : o.accurate = false → sees o.vec m.vec = true) (hl : ∀ d ∈ c.dps, ∀ q, ¬ Dead (env.tk q) d) (p : Nat) :
    ∃ (out : List (DataPoint F)) (w' : World F) (p' : Nat), (Api.queryDataPoint env [a] (some o)).run w p =
        .ok (((200, out.map (fun d => ⟨d.vec, d.payload, d.expires, d.expireEnabled⟩)), w'), p') ∧
      out.Pairwise fun d e => ∀ s t, cosineSimilarity o.vec d.vec = some s → cosineSimilarity o.vec e.vec = some t → lt s t = false := by
  obtain ⟨out, w', p', h0, rest, _, h2, _⟩ := C106_exact he hw o hv hn hr hg hc hs hs' hl p
  exact ⟨out, w', p', h0, h2.sorted.imp fun h s t hs ht => by simpa [Better] using h s t hs ht⟩

open ServerExample ApproxExample

/-- C139 is violated: after the fourth of the datapoints (1,0), (0,10), (1,1), (1,1) the node divides its centroid, and the answer to a query for
(1,0) lists the two datapoints (1,1), whose similarity is about 0.71, before (1,0) itself. -/
theorem C139_refuted : ∃ r p, (session [put 1 0, put 0 10, put 1 1, put 1 1] ⟨7, true, [.ofInt 1, .ofInt 0], 4, false⟩).run start 0 = .ok (r, p) ∧
    (looked r).1 = (200, [[F64.ofInt 1, .ofInt 1], [.ofInt 1, .ofInt 1], [.ofInt 1, .ofInt 0], [.ofInt 0, .ofInt 10]]) :=
  exists_of_run (f := fun r => (looked r).1) (by decide +kernel)

/-- C139: node 1 of `two` has one centroid. -/
example : ∃ (out : List (DataPoint F64)) (w' : World F64) (p' : Nat), (Api.queryDataPoint env [1] (some ⟨7, true, [F64.ofInt 1, .ofInt 2], 2, true⟩)).run two 0 =
      .ok (((200, out.map (fun d => ⟨d.vec, d.payload, d.expires, d.expireEnabled⟩)), w'), p') ∧
    out.Pairwise fun d e => ∀ s t, cosineSimilarity [F64.ofInt 1, .ofInt 2] d.vec = some s → cosineSimilarity [F64.ofInt 1, .ofInt 2] e.vec = some t →
      lt s t = false :=
  C139_exact_partial env_ok two_ok ⟨7, true, [F64.ofInt 1, .ofInt 2], 2, true⟩ (by simp) rfl ⟨fun _ => rfl, fun _ => rfl⟩ rfl rfl (by decide +kernel)
    (by simp) (by
      intro d hd q h
      have : ∀ d ∈ [dp 1 0, dp 2 0], d.expireEnabled = false := by decide +kernel
      simp [Dead, this d hd] at h) 0

namespace SortedExample

/-- Two nodes whose datapoints lie on the axes, in exact arithmetic. -/
noncomputable def axes : World ℝ := nodes2 (man [2, 0] [cen [1, 0] [rpt 3 0, rpt 5 0], cen [3, 0] [rpt 2 0]]) (man [0, 1] [cen [0, 1] [rpt 0 2]])
  (man [3, 4] [])

theorem axes_ok : WorldOK (fun _ => 2) axes :=
  nodes2_ok (man_mok rfl (by simp [cen, rpt]) (by simp [cen])) (man_mok rfl (by simp [cen, rpt]) (by simp [cen])) (man_mok rfl (by simp) (by simp))

end SortedExample
open SortedExample

/-- C139: all datapoints of `axes` lie in the directions of their centroids and nodes, so that every answer is in order. -/
example (accurate drain : Bool) (x y : ℝ) (n p : Nat) : ∃ (out : List (DataPoint ℝ)) (w' : World ℝ) (p' : Nat),
    (Api.queryDataPoint env [1, 2] (some ⟨7, accurate, [x, y], n, drain⟩)).run axes p =
        .ok (((200, out.map (fun d => ⟨d.vec, d.payload, d.expires, d.expireEnabled⟩)), w'), p') ∧
      out.Pairwise fun d e => angle [x, y] d.vec ≤ angle [x, y] e.vec := by
  have hx : ∀ a b : ℝ, 0 < a → 0 < b → angle [a, 0] [b, 0] ≤ 0 := fun a b ha hb => by
    have := ray_angle a 0 (b / a) (by positivity) (by positivity)
    rwa [div_mul_cancel₀ b ha.ne', mul_zero] at this
  have hy : ∀ a b : ℝ, 0 < a → 0 < b → angle [0, a] [0, b] ≤ 0 := fun a b ha hb => by
    have := ray_angle 0 a (b / a) (by positivity) (by positivity)
    rwa [div_mul_cancel₀ b ha.ne', mul_zero] at this
  have h1 : axes.get 1 7 = some (man [2, 0] [cen [1, 0] [rpt 3 0, rpt 5 0], cen [3, 0] [rpt 2 0]]) := rfl
  have h2 : axes.get 2 7 = some (man [0, 1] [cen [0, 1] [rpt 0 2]]) := rfl
  have main := C139_near_partial env_ok axes_ok ⟨7, accurate, [x, y], n, drain⟩ rfl rfl (addrs := [1, 2]) (by simp) (le_refl 0) (by
    intro a ha m hg c hc d hd
    dsimp only at hg ⊢
    rcases (by simpa using ha : a = 1 ∨ a = 2) with rfl | rfl
    · rw [h1] at hg; cases hg
      have hd' : ∃ b : ℝ, 0 < b ∧ d.vec = [b, 0] := by
        simp only [man, cen, List.mem_cons, List.not_mem_nil, or_false] at hc
        rcases hc with rfl | rfl
        · simp only [List.mem_cons, List.not_mem_nil, or_false] at hd
          rcases hd with rfl | rfl
          · exact ⟨3, by norm_num, rfl⟩
          · exact ⟨5, by norm_num, rfl⟩
        · simp only [List.mem_cons, List.not_mem_nil, or_false] at hd
          subst hd
          exact ⟨2, by norm_num, rfl⟩
      obtain ⟨b, hb, hd'⟩ := hd'
      have hall : ∀ c ∈ (man [2, 0] [cen [1, 0] [rpt 3 0, rpt 5 0], cen [3, 0] [rpt 2 0]]).centroids, angle c.vec d.vec ≤ 0 := by
        intro c hc
        rw [hd']
        simp only [man, List.mem_cons, List.not_mem_nil, or_false] at hc
        rcases hc with rfl | rfl
        · exact hx 1 b (by norm_num) hb
        · exact hx 3 b (by norm_num) hb
      refine ⟨hall c hc, ?_⟩
      split
      · exact hall
      · rw [hd']; exact hx 2 b (by norm_num) hb
    · rw [h2] at hg; cases hg
      simp only [man, List.mem_cons, List.not_mem_nil, or_false] at hc
      subst hc
      simp only [cen, List.mem_cons, List.not_mem_nil, or_false] at hd
      subst hd
      refine ⟨hy 1 2 (by norm_num) (by norm_num), ?_⟩
      split
      · intro c hc
        simp only [man, List.mem_cons, List.not_mem_nil, or_false] at hc
        subst hc
        exact hy 1 2 (by norm_num) (by norm_num)
      · exact hy 1 2 (by norm_num) (by norm_num)) p
  obtain ⟨out, w', p', e1, e2⟩ := main
  exact ⟨out, w', p', e1, by simpa using e2⟩

end Trypo
