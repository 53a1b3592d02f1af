import Verif.Props.Harvest
import Verif.Props.MathUtils
import Verif.Spec.Approx
import Mathlib.Analysis.InnerProductSpace.PiL2
import Mathlib.Geometry.Euclidean.Angle.Unoriented.TriangleInequality

/-!
# C126-C128: how near the answer of a search is
-/

namespace Trypo
open GoFloat Spec

/-! ### Angles -/

/-- A list as a vector of `ℝ^n`. -/
noncomputable def euc (n : Nat) (v : List ℝ) : EuclideanSpace ℝ (Fin n) := WithLp.toLp 2 (fun i => v.getD i 0)

theorem euc_inner : ∀ (n : Nat) (v w : List ℝ), v.length = n → w.length = n → (Inner.inner ℝ (euc n v) (euc n w) : ℝ) = Spec.inner v w
  | 0, v, w, hv, hw => by
    rw [List.eq_nil_of_length_eq_zero hv, List.eq_nil_of_length_eq_zero hw]
    rw [PiLp.inner_apply]
    simp [Spec.inner]
  | n + 1, [], _, hv, _ => by simp at hv
  | n + 1, _ :: _, [], _, hw => by simp at hw
  | n + 1, a :: v, b :: w, hv, hw => by
    have ih := euc_inner n v w (by simpa using hv) (by simpa using hw)
    simp only [euc, PiLp.inner_apply] at ih ⊢
    rw [Fin.sum_univ_succ]
    simp only [Spec.inner, List.zip_cons_cons, List.map_cons, List.sum_cons] at ih ⊢
    rw [← ih]
    simp [mul_comm]

theorem euc_norm (n : Nat) (v : List ℝ) (hv : v.length = n) : ‖euc n v‖ = len v := by
  rw [norm_eq_sqrt_real_inner, euc_inner n v v hv hv, len]

theorem angle_euc {n : Nat} {v w : List ℝ} (hv : v.length = n) (hw : w.length = n) :
    angle v w = InnerProductGeometry.angle (euc n v) (euc n w) := by
  unfold angle InnerProductGeometry.angle
  rw [euc_inner n v w hv hw, euc_norm n v hv, euc_norm n w hw]

theorem angle_triangle {n : Nat} {u v w : List ℝ} (hu : u.length = n) (hv : v.length = n) (hw : w.length = n) :
    angle u w ≤ angle u v + angle v w := by
  rw [angle_euc hu hw, angle_euc hu hv, angle_euc hv hw]
  exact InnerProductGeometry.angle_le_angle_add_angle _ _ _

theorem angle_comm' (v w : List ℝ) (h : v.length = w.length) : angle v w = angle w v := by
  rw [angle_euc h rfl, angle_euc rfl h, InnerProductGeometry.angle_comm]

theorem cos_real_all {v w : List ℝ} (h : w.length = v.length) : cosineSimilarity v w = some (Spec.inner v w / (len v * len w)) := by
  by_cases hv : NonZero v
  · rw [cos_real h.symm hv, div_div]
  · by_cases hw : NonZero w
    · rw [cos_real' h.symm hw, div_div]
    · have hz : ∀ u : List ℝ, ¬ NonZero u → len u = 0 := by
        intro u hu
        have : ∀ u : List ℝ, (∀ x ∈ u, x = 0) → Spec.inner u u = 0 := by
          intro u
          induction u with
          | nil => simp [Spec.inner]
          | cons a u ih =>
            intro hx
            have := ih (fun x hx' => hx x (List.mem_cons_of_mem _ hx'))
            simp only [Spec.inner, List.zip_cons_cons, List.map_cons, List.sum_cons] at this ⊢
            rw [this, hx a (by simp)]; simp
        unfold len
        rw [this u (by simpa [NonZero] using hu), Real.sqrt_zero]
      unfold cosineSimilarity
      rw [if_neg (by simpa using h.symm), norm_real, norm_real, hz v hv, hz w hw]
      simp

/-- A vector that is at least as similar is at no larger an angle. -/
theorem angle_le_of_sim {t v w : List ℝ} (hv : v.length = t.length) (hw : w.length = t.length)
    (h : ∀ s s', cosineSimilarity t v = some s → cosineSimilarity t w = some s' → ¬ Better false s' s) : angle t v ≤ angle t w := by
  have := h _ _ (cos_real_all hv) (cos_real_all hw)
  simp only [Better, Bool.false_eq_true, if_false, rlt, not_lt] at this
  exact Real.antitone_arccos this

/-! ### C126: a query -/

theorem _root_.Trypo.Spec.InTurn.first {σ α : Type} {give : Nat → σ → List α → Prop} {k : Nat} {s : σ} {ss : List σ} {out : List α} (hk : 0 < k)
    (h : InTurn give k (s :: ss) out) : ∃ part rest, give k s part ∧ out = part ++ rest := by
  generalize hs : s :: ss = l at h
  cases h with
  | none => cases hs
  | enough => omega
  | next h1 h2 => cases hs; exact ⟨_, _, h1, rfl⟩

/-- The first of the nearest centroids is asked first, and it is nearest. -/
theorem managerGives_first {v : List ℝ} {tk : Nat → Int} {p p' : Nat} {n : Nat} {m : Manager ℝ} {part : List (DataPoint ℝ)}
    (hn : 0 < n) (h : ManagerGives v (tk p) (tk p') n m part) (hc : m.centroids ≠ [])
    (hdim : ∀ c ∈ m.centroids, c.vec.length = v.length ∧ ∀ d ∈ c.dps, d.vec.length = v.length) (hne : ∀ c ∈ m.centroids, c.dps ≠ [])
    (hl : ∀ c ∈ m.centroids, ∀ d ∈ c.dps, ∀ q, ¬ Dead (tk q) d) :
    ∃ c ∈ m.centroids, (∀ c' ∈ m.centroids, angle v c.vec ≤ angle v c'.vec) ∧ ∃ d rest, part = d :: rest ∧ d ∈ c.dps := by
  obtain ⟨near, cs, e1, e2, e3⟩ := h
  have hsc : ∀ j c', m.centroids[j]? = some c' → ∃ s, HasScore (cosineSimilarity v) false (m.centroids.map (fun c => c.vec)) j s ∧
      cosineSimilarity v c'.vec = some s := by
    intro j c' hj
    obtain ⟨s, h1, h2⟩ := sees_iff.1 (sees_real (hdim c' (List.mem_of_getElem? hj)).1)
    exact ⟨s, ⟨c'.vec, by simp [hj], h1, h2⟩, h1⟩
  cases near with
  | nil =>
    exfalso
    have := e1.length
    obtain ⟨c, hc'⟩ := List.exists_mem_of_ne_nil _ hc
    have hpos : 0 < (m.centroids.map (fun c => c.vec)).countP (isCandidate (cosineSimilarity v) false) :=
      List.countP_pos_iff.2 ⟨c.vec, List.mem_map.2 ⟨c, hc', rfl⟩, sees_real (hdim c hc').1⟩
    simp only [List.length_nil] at this
    omega
  | cons i near =>
    cases cs with
    | nil => simp at e2
    | cons c cs =>
      have hi : m.centroids[i]? = some c := by
        have := e2
        simp only [List.map_cons, List.cons.injEq] at this
        exact this.1
      have hcm := List.mem_of_getElem? hi
      refine ⟨c, hcm, fun c' hc' => ?_, ?_⟩
      · obtain ⟨j, hj⟩ := List.getElem?_of_mem hc'
        obtain ⟨s, hs, hs'⟩ := hsc i c hi
        obtain ⟨t, ht, ht'⟩ := hsc j c' hj
        refine angle_le_of_sim (hdim c hcm).1 (hdim c' hc').1 (fun a b ha hb => ?_)
        rw [hs'] at ha; rw [ht'] at hb
        cases ha; cases hb
        by_cases hmem : j ∈ i :: near
        · rcases List.mem_cons.1 hmem with rfl | hmem
          · rw [hi] at hj; cases hj
            rw [hs'] at ht'; cases ht'
            simp [Better]
          · exact (List.pairwise_cons.1 e1.sorted).1 j hmem s t hs ht
        · exact e1.best i (by simp) j hmem s t hs ht
      · obtain ⟨part1, rest, ⟨live, g1, rest1, g2, g3, g4⟩, rfl⟩ := InTurn.first hn (by simpa using e3)
        have hlive : live = c.dps := by
          have f1 := g1.keeps
          have f2 := g1.drops
          rw [List.filter_eq_self.2 (fun d hd => by simpa using hl c hcm d hd _)] at f1 f2
          exact f2.antisymm f1
        subst hlive
        cases part1 with
        | nil =>
          exfalso
          obtain ⟨d, hd⟩ := List.exists_mem_of_ne_nil _ (hne c hcm)
          obtain ⟨s, h1, h2⟩ := sees_iff.1 (sees_real ((hdim c hcm).2 d hd))
          have hpos : 0 < candidates (fun d : DataPoint ℝ => cosineSimilarity v d.vec) false c.dps :=
            List.countP_pos_iff.2 ⟨d, hd, by simp [h1, h2]⟩
          simp only [List.length_nil] at g4
          omega
        | cons d part1 =>
          exact ⟨d, part1 ++ rest, rfl, g2.subset (by simp)⟩

/-- The node that is asked first reported a vector that is nearest. -/
theorem bestFit_first {v : List ℝ} (hv : v ≠ []) {answers : List (Addr × Option (List ℝ))} {asked : List Addr}
    (h : BestFit (cosineSimilarity v) false answers asked) {q : Addr × Option (List ℝ)} (hq : q ∈ answers) {u : List ℝ} (hu : q.2 = some u)
    (hul : u.length = v.length) :
    ∃ a as u', asked = a :: as ∧ (a, some u') ∈ answers ∧ u'.length = v.length ∧ ∀ r ∈ answers, ∀ x, r.2 = some x → x.length = v.length → angle v u' ≤ angle v x := by
  obtain ⟨chosen, rfl, h2, h3⟩ := h
  have hin : ∀ r ∈ answers, ∀ x, r.2 = some x → x.length = v.length → (r.1, x) ∈ chosen := by
    intro r hr x hx hxl
    obtain ⟨c, hc, hce⟩ := List.mem_map.1 (h2.symm.subset (List.mem_filter.2 ⟨hr, by
      simp only [hx, Bool.and_eq_true, decide_eq_true_eq]
      exact ⟨fun h0 => hv (List.eq_nil_of_length_eq_zero (by rw [← hxl, h0]; rfl)), sees_real hxl⟩⟩))
    have : c = (r.1, x) := by
      obtain ⟨c1, c2⟩ := c
      have e1 := congrArg Prod.fst hce
      have e2 := congrArg Prod.snd hce
      simp only [hx, Option.some.injEq] at e1 e2
      rw [e1, e2]
    exact this ▸ hc
  have hdim : ∀ c ∈ chosen, c.2.length = v.length := by
    intro c hc
    have := (List.mem_filter.1 (h2.subset (List.mem_map.2 ⟨c, hc, rfl⟩))).2
    simp only [Bool.and_eq_true] at this
    obtain ⟨s, hs, _⟩ := sees_iff.1 (show sees v c.2 = true from this.2)
    by_contra hne
    rw [(C04_cos_fails_iff v c.2).2 (fun h => hne h.symm)] at hs
    cases hs
  cases chosen with
  | nil => cases hin q hq u hu hul
  | cons c chosen =>
    refine ⟨c.1, chosen.map (fun q => q.1), c.2, rfl, (List.mem_filter.1 (h2.subset (by simp))).1, hdim c (by simp), fun r hr x hx hxl => ?_⟩
    have hm := hin r hr x hx hxl
    refine angle_le_of_sim (hdim c (by simp)) hxl (fun s t hs ht => ?_)
    rcases List.mem_cons.1 hm with he | hm
    · rw [← he] at hs
      rw [hs] at ht; cases ht
      simp [Better]
    · exact (List.pairwise_cons.1 h3).1 _ hm s t hs ht

/-- C126 in part, in exact arithmetic: if every datapoint is within the angle `ρ` of the vector by which it is found - of its centroid for
an accurate query, of its node for a fast one -, the angle of the first datapoint of the answer is at most `2 ρ` more than the smallest.
For states without empty centroids (and for a fast query without nodes that have no centroid at all), while nothing expires and all nodes
can be reached. What is missing is that it be the smallest, which is false. -/
theorem C126_near_partial {env : Env} (he : EnvOK env) {D : NS → Nat} {w : World ℝ} (hw : WorldOK D w) (o : Api.QueryOpts ℝ) (hD : D o.ns ≠ 0)
    (hv : o.vec.length = D o.ns) {n : Nat} (hn : o.n = n) (hpos : 0 < n) {addrs : List Addr} (hnd : addrs.Nodup) (hr : ∀ a ∈ addrs, Reachable env a)
    (hl : ∀ d ∈ storedAt w addrs o.ns, ∀ q, ¬ Dead (env.tk q) d)
    (hne : ∀ a ∈ addrs, ∀ m, w.get a o.ns = some m → (o.accurate = false → m.centroids ≠ []) ∧ ∀ c ∈ m.centroids, c.dps ≠ [])
    {ρ : ℝ} (hρ : ∀ a ∈ addrs, ∀ m, w.get a o.ns = some m → ∀ c ∈ m.centroids, ∀ d ∈ c.dps,
      angle (if o.accurate then c.vec else m.vec) d.vec ≤ ρ) (p : Nat) :
    ∃ (out : List (DataPoint ℝ)) (w' : World ℝ) (p' : Nat), (Api.queryDataPoint env addrs (some o)).run w p =
        .ok (((200, out.map (fun d => ⟨d.vec, d.payload, d.expires, d.expireEnabled⟩)), w'), p') ∧
      ∀ x ∈ storedAt w addrs o.ns, ∃ d rest, out = d :: rest ∧ d ∈ storedAt w addrs o.ns ∧
        angle o.vec d.vec ≤ angle o.vec x.vec + 2 * ρ := by
  obtain ⟨out, w', p', h0, answers, asked, h1, h2, h3, h4⟩ := C106_query he hw o hn hnd p
  refine ⟨out, w', p', h0, fun x hx => ?_⟩
  have hvne : o.vec ≠ [] := by intro h; rw [h] at hv; exact hD hv.symm
  have hdim : ∀ a m, w.get a o.ns = some m → m.vec.length = o.vec.length ∧ ∀ c ∈ m.centroids, c.vec.length = o.vec.length ∧
      ∀ d ∈ c.dps, d.vec.length = o.vec.length := by
    intro a m hg
    obtain ⟨i, _, hi⟩ := lookup_of_get hw hg
    have hok := hw.mok hi
    refine ⟨by rw [hok.len, hv], fun c hc => ⟨by rw [(hok.wf.dim c hc).1, hok.len, hv], fun d hd => ?_⟩⟩
    rw [(hok.wf.dim c hc).2 d hd, (hok.wf.dim c hc).1, hok.len, hv]
  have hmem : ∀ a ∈ addrs, ∀ m, w.get a o.ns = some m → ∀ c ∈ m.centroids, ∀ d ∈ c.dps, d ∈ storedAt w addrs o.ns := by
    intro a ha m hg c hc d hd
    unfold storedAt
    refine List.mem_flatMap.2 ⟨a, ha, ?_⟩
    simp only [hg]
    exact List.mem_flatMap.2 ⟨c, hc, hd⟩
  obtain ⟨ax, hax, hx'⟩ := List.mem_flatMap.1 hx
  cases hgx : w.get ax o.ns with
  | none => simp [hgx] at hx'
  | some mx =>
    simp only [hgx] at hx'
    obtain ⟨cx, hcx, hxc⟩ := List.mem_flatMap.1 hx'
    obtain ⟨qx, hqx, hqx'⟩ := List.mem_map.1 (h1.symm.subset hax)
    -- what the nodes say
    have hsays : ∀ q ∈ answers, ∀ m, w.get q.1 o.ns = some m → m.centroids ≠ [] → ∃ u, q.2 = some u ∧ u.length = o.vec.length ∧
        (if o.accurate then (∃ c ∈ m.centroids, u = c.vec) ∧ ∀ c ∈ m.centroids, angle o.vec u ≤ angle o.vec c.vec else u = m.vec) := by
      intro q hq m hg hc
      have hra := hr q.1 (h1.subset (List.mem_map.2 ⟨q, hq, rfl⟩))
      have := h2 q hq
      cases hacc : o.accurate with
      | true =>
        rw [hacc, if_pos rfl] at this
        obtain ⟨val, e1, e2⟩ := this
        rw [heard_eq hra e2]
        rcases e1 with ⟨e1, _⟩ | ⟨m', u, e1, rfl, e3⟩
        · rw [hg] at e1; cases e1
        · rw [hg] at e1; cases e1
          rcases e3 with ⟨_, e3⟩ | ⟨c, hc, rfl, e3, e4⟩
          · obtain ⟨c, hc⟩ := List.exists_mem_of_ne_nil _ hc
            have := e3 c hc
            rw [show isCandidate (cosineSimilarity o.vec) false c.vec = true from sees_real ((hdim _ _ hg).2 c hc).1] at this
            cases this
          · refine ⟨c.vec, rfl, ((hdim _ _ hg).2 c hc).1, ?_⟩
            rw [if_pos rfl]
            refine ⟨⟨c, hc, rfl⟩, fun c' hc' => angle_le_of_sim ((hdim _ _ hg).2 c hc).1 ((hdim _ _ hg).2 c' hc').1 (fun s s' hs hs' => ?_)⟩
            refine e4 c' hc' s s' hs hs' ?_
            obtain ⟨s'', f1, f2⟩ := sees_iff.1 (sees_real ((hdim _ _ hg).2 c' hc').1)
            rw [hs'] at f1; cases f1; exact f2
      | false =>
        rw [hacc, if_neg (by simp)] at this
        unfold FastAnswer at this
        rw [heard_eq hra this, hg]
        exact ⟨m.vec, rfl, (hdim _ _ hg).1, by rw [if_neg (by simp)]⟩
    have hcx0 : mx.centroids ≠ [] := List.ne_nil_of_mem hcx
    obtain ⟨ux, hux, huxl, hux'⟩ := hsays qx hqx mx (by rw [hqx']; exact hgx) hcx0
    obtain ⟨a, as, u, rfl, hau, hul, hbest⟩ := bestFit_first hvne h3 hqx hux huxl
    have haddr : a ∈ addrs := h1.subset (List.mem_map.2 ⟨_, hau, rfl⟩)
    have hfirst := hbest qx hqx ux hux huxl
    obtain ⟨part, rest, hgive, rfl⟩ := InTurn.first hpos h4
    have hsome : ∃ m, w.get a o.ns = some m ∧ m.centroids ≠ [] := by
      have hra := hr a haddr
      have := h2 _ hau
      cases hg : w.get a o.ns with
      | none =>
        exfalso
        cases hacc : o.accurate with
        | true =>
          rw [hacc, if_pos rfl] at this
          obtain ⟨val, e1, e2⟩ := this
          have e2 := heard_eq hra e2
          rcases e1 with ⟨_, e1⟩ | ⟨m', u', e1, _⟩
          · rw [e1] at e2; cases e2
          · rw [hg] at e1; cases e1
        | false =>
          rw [hacc, if_neg (by simp)] at this
          have e2 := heard_eq hra this
          simp [hg] at e2
      | some m =>
        refine ⟨m, rfl, ?_⟩
        cases hacc : o.accurate with
        | false => exact (hne a haddr m hg).1 hacc
        | true =>
          rw [hacc, if_pos rfl] at this
          obtain ⟨val, e1, e2⟩ := this
          have e2 := heard_eq hra e2
          rcases e1 with ⟨e1, _⟩ | ⟨m', u', e1, rfl, e3⟩
          · rw [hg] at e1; cases e1
          · rw [hg] at e1; cases e1
            cases e2
            rcases e3 with ⟨e3, _⟩ | ⟨c, hc, _⟩
            · exfalso
              subst e3
              exact hvne (List.eq_nil_of_length_eq_zero hul.symm)
            · exact List.ne_nil_of_mem hc
    obtain ⟨m, hg, hc0⟩ := hsome
    obtain ⟨u1, hu1, hu1l, hu1'⟩ := hsays _ hau m hg hc0
    cases hu1
    have hgive : ManagerGives o.vec (env.tk p) (env.tk p') n m part := by
      have hra := hr a haddr
      rcases hgive with ⟨_, q, hq | hq⟩ | h
      · rw [hra.1 q] at hq; cases hq
      · rw [hra.2 q] at hq; cases hq
      · simpa only [hg] using h
    obtain ⟨c, hc, hcn, d, rest', rfl, hd⟩ := managerGives_first hpos hgive hc0 (hdim _ _ hg).2 (hne a haddr m hg).2
      (fun c hc d hd => hl d (hmem a haddr m hg c hc d hd))
    refine ⟨d, rest' ++ rest, rfl, hmem a haddr m hg c hc d hd, ?_⟩
    have hρd := hρ a haddr m hg c hc d hd
    have hρx := hρ ax hax mx hgx cx hcx x hxc
    have ⟨hml, hcl⟩ := hdim _ _ hg
    have ⟨hmxl, hcxl⟩ := hdim _ _ hgx
    cases hacc : o.accurate with
    | true =>
      rw [hacc, if_pos rfl] at hρd hρx hux' hu1'
      have t1 := angle_triangle (n := o.vec.length) rfl (hcl c hc).1 ((hcl c hc).2 d hd)
      have t2 := angle_triangle (n := o.vec.length) rfl ((hcxl cx hcx).2 x hxc) (hcxl cx hcx).1
      rw [angle_comm' x.vec cx.vec (by rw [(hcxl cx hcx).2 x hxc, (hcxl cx hcx).1])] at t2
      obtain ⟨⟨c1, hc1, rfl⟩, _⟩ := hu1'
      have t3 := hcn c1 hc1
      have t4 := hux'.2 cx hcx
      linarith
    | false =>
      rw [hacc, if_neg (by simp)] at hρd hρx hux' hu1'
      subst hux' hu1'
      have t1 := angle_triangle (n := o.vec.length) rfl hml ((hcl c hc).2 d hd)
      have t2 := angle_triangle (n := o.vec.length) rfl ((hcxl cx hcx).2 x hxc) hmxl
      rw [angle_comm' x.vec mx.vec (by rw [(hcxl cx hcx).2 x hxc, hmxl])] at t2
      linarith


namespace ApproxExample
open ServerExample

/-- The shipped searches, with centroids that are divided at 4 datapoints. -/
def fac4 : Factory F64 := ⟨10, 4, knnCos, kfnCos⟩

/-- A request to put `(x, y)`. -/
def put (x y : Int) : Api.PutOpts F64 := ⟨7, true, ⟨[.ofInt x, .ofInt y], [], 0, false⟩⟩

/-- Puts, one after the other, and a query. -/
def session (l : List (Api.PutOpts F64)) (o : Api.QueryOpts F64) : Prog F64 (Nat × List (Api.DP F64)) := do
  let _ ← Prog.each (fun b => Api.putDataPoint env fac4 [1] (some b)) l
  Api.queryDataPoint env [1] (some o)

/-- The answer of the query and what is stored at the end. -/
def looked (r : (Nat × List (Api.DP F64)) × World F64) : (Nat × List (List F64)) × List (List F64) :=
  ((r.1.1, r.1.2.map (fun d => d.vec)), (storedAt r.2 [1] 7).map (fun d => d.vec))

end ApproxExample
open ServerExample ApproxExample

/-- C126 is violated: the node divides its centroid at the fourth datapoint, and an accurate query for the one nearest to `(1, 0)` then answers
`(1, 1)`, whose similarity is about 0.71, although `(1, 0)` itself is stored. -/
theorem C126_refuted : ∃ r p, (session [put 1 0, put 0 10, put 1 1, put 1 1] ⟨7, true, [.ofInt 1, .ofInt 0], 1, false⟩).run start 0 = .ok (r, p) ∧
    looked r = ((200, [[F64.ofInt 1, .ofInt 1]]), [[F64.ofInt 1, .ofInt 1], [.ofInt 1, .ofInt 1], [.ofInt 1, .ofInt 0], [.ofInt 0, .ofInt 10]]) :=
  exists_of_run (by decide +kernel)

/-- The similarities in C126_refuted. -/
theorem C126_refuted_similarity : cosineSimilarity [F64.ofInt 1, .ofInt 0] [.ofInt 1, .ofInt 0] = some (.ofInt 1) ∧
    ∃ s, cosineSimilarity [F64.ofInt 1, .ofInt 0] [.ofInt 1, .ofInt 1] = some s ∧ lt s (.ofInt 1) = true := by
  refine ⟨by decide +kernel, ?_⟩
  have : (cosineSimilarity [F64.ofInt 1, .ofInt 0] [.ofInt 1, .ofInt 1]).map (fun s => lt s (.ofInt 1)) = some true := by decide +kernel
  cases h : cosineSimilarity [F64.ofInt 1, .ofInt 0] [.ofInt 1, .ofInt 1] with
  | none => rw [h] at this; cases this
  | some s => rw [h] at this; exact ⟨s, rfl, by simpa using this⟩

namespace ApproxExample

/-- A datapoint over ℝ. -/
noncomputable def rpt (x y : ℝ) : DataPoint ℝ := ⟨[x, y], [], 0, false⟩

/-- Two nodes, with centroids on the directions `(1, 0)`, `(0, 1)` and `(1, 1)`. -/
noncomputable def rays : World ℝ := nodes2 (man [1, 1] [cen [1, 0] [rpt 3 0, rpt 5 0], cen [0, 1] [rpt 0 2]]) (man [1, 1] [cen [1, 1] [rpt 4 4]])
  (man [3, 4] [])

theorem rays_ok : WorldOK (fun _ => 2) rays :=
  nodes2_ok (man_mok rfl (by simp [cen, rpt]) (by simp [cen])) (man_mok rfl (by simp [cen, rpt]) (by simp [cen])) (man_mok rfl (by simp) (by simp))

end ApproxExample

theorem ray_angle : ∀ a b k : ℝ, 0 < k → 0 < a ^ 2 + b ^ 2 → angle [a, b] [k * a, k * b] ≤ 0 := by
  intro a b k hk hab
  have e : inner [a, b] [k * a, k * b] / (len [a, b] * len [k * a, k * b]) = 1 := by
    have h1 : inner [a, b] [k * a, k * b] = k * (a ^ 2 + b ^ 2) := by simp [Spec.inner]; ring
    have h2 : len [a, b] = Real.sqrt (a ^ 2 + b ^ 2) := by simp [len, Spec.inner]; ring_nf
    have h3 : len [k * a, k * b] = k * Real.sqrt (a ^ 2 + b ^ 2) := by
      rw [← Real.sqrt_sq hk.le, ← Real.sqrt_mul (by positivity), Real.sqrt_sq hk.le]
      simp [len, Spec.inner]; ring_nf
    rw [h1, h2, h3, show Real.sqrt (a ^ 2 + b ^ 2) * (k * Real.sqrt (a ^ 2 + b ^ 2)) = k * (Real.sqrt (a ^ 2 + b ^ 2)) ^ 2 by ring,
      Real.sq_sqrt hab.le]
    exact div_self (by positivity)
  rw [angle, e, Real.arccos_one]

/-- C126: in `rays` every datapoint is in the direction of its centroid, so the first answer of an accurate query is at the smallest angle. -/
example (x y : ℝ) (p : Nat) : ∃ (out : List (DataPoint ℝ)) (w' : World ℝ) (p' : Nat), (Api.queryDataPoint env [1, 2] (some ⟨7, true, [x, y], 1, false⟩)).run rays p =
        .ok (((200, out.map (fun d => ⟨d.vec, d.payload, d.expires, d.expireEnabled⟩)), w'), p') ∧
      ∀ e ∈ storedAt rays [1, 2] 7, ∃ d rest, out = d :: rest ∧ angle [x, y] d.vec ≤ angle [x, y] e.vec := by
  have hz := ray_angle
  have h1 : rays.get 1 7 = some (man [1, 1] [cen [1, 0] [rpt 3 0, rpt 5 0], cen [0, 1] [rpt 0 2]]) := rfl
  have h2 : rays.get 2 7 = some (man [1, 1] [cen [1, 1] [rpt 4 4]]) := rfl
  have main := C126_near_partial env_ok rays_ok ⟨7, true, [x, y], 1, false⟩ (by simp) rfl (n := 1) rfl (by simp)
    (addrs := [1, 2]) (by simp) (fun a _ => ⟨fun _ => rfl, fun _ => rfl⟩) (ρ := 0) (p := p)
  suffices hs : _ ∧ _ ∧ _ by
    obtain ⟨out, w', p', e1, e2⟩ := main hs.1 hs.2.1 hs.2.2
    refine ⟨out, w', p', e1, fun e he => ?_⟩
    obtain ⟨d, rest, f1, _, f2⟩ := e2 e he
    exact ⟨d, rest, f1, by simpa using f2⟩
  refine ⟨?_, ?_, ?_⟩
  · intro d hd q
    have : d.expireEnabled = false := by
      simp [storedAt, h1, h2, stored, man, cen, rpt] at hd
      rcases hd with rfl | rfl | rfl | rfl <;> rfl
    simp [Dead, this]
  · intro a ha m hg
    refine ⟨by simp, ?_⟩
    rcases (by simpa using ha : a = 1 ∨ a = 2) with rfl | rfl
    · rw [show (⟨7, true, [x, y], 1, false⟩ : Api.QueryOpts ℝ).ns = 7 from rfl, h1] at hg; cases hg; simp [man, cen]
    · rw [show (⟨7, true, [x, y], 1, false⟩ : Api.QueryOpts ℝ).ns = 7 from rfl, h2] at hg; cases hg; simp [man, cen]
  · intro a ha m hg c hc d hd
    rw [if_pos rfl]
    rcases (by simpa using ha : a = 1 ∨ a = 2) with rfl | rfl
    · rw [show (⟨7, true, [x, y], 1, false⟩ : Api.QueryOpts ℝ).ns = 7 from rfl, h1] at hg; cases hg
      simp only [man, List.mem_cons, List.not_mem_nil, or_false] at hc
      rcases hc with rfl | rfl
      · simp only [cen, List.mem_cons, List.not_mem_nil, or_false] at hd
        rcases hd with rfl | rfl
        · simpa [cen, rpt] using hz 1 0 3 (by norm_num) (by norm_num)
        · simpa [cen, rpt] using hz 1 0 5 (by norm_num) (by norm_num)
      · simp only [cen, List.mem_cons, List.not_mem_nil, or_false] at hd
        subst hd
        simpa [cen, rpt] using hz 0 1 2 (by norm_num) (by norm_num)
    · rw [show (⟨7, true, [x, y], 1, false⟩ : Api.QueryOpts ℝ).ns = 7 from rfl, h2] at hg; cases hg
      simp only [man, List.mem_cons, List.not_mem_nil, or_false] at hc
      subst hc
      simp only [cen, List.mem_cons, List.not_mem_nil, or_false] at hd
      subst hd
      simpa [cen, rpt] using hz 1 1 4 (by norm_num) (by norm_num)

/-! ### C127: the prefabricated searches by `EuclideanDistance` -/

theorem maxFloat_big : (8 : ℝ) < GoFloat.maxFloat := by
  rw [rmaxFloat]
  have h53 : (2 : ℝ) ^ 1024 = 2 ^ 971 * 2 ^ 53 := by rw [← pow_add]
  have h971 : (1 : ℝ) ≤ 2 ^ 971 := one_le_pow₀ (by norm_num)
  rw [h53]
  generalize (2 : ℝ) ^ 971 = x at h971
  norm_num
  linarith

/-- C127 is violated: nearest to the origin among `(3, 3)` and `(0, 5)` is `(3, 3)`, and `KNNEuc` answers `(0, 5)` - on IEEE floats... -/
theorem C127_refuted_f64 : knnEuc [F64.ofInt 0, .ofInt 0] [[.ofInt 3, .ofInt 3], [.ofInt 0, .ofInt 5]] 1 = .ok [1] := by
  decide +kernel

/-- ... and in exact arithmetic. -/
theorem C127_refuted : ¬ ∀ (t : List ℝ) (pool : List (List ℝ)) (k : Nat), ∃ r, knnEuc t pool k = .ok r ∧
    ClosestFirst (fun v => Real.sqrt (sqDist t v)) t.length pool k r := by
  intro h
  obtain ⟨r, h1, h2⟩ := h [0, 0] [[3, 3], [0, 5]] 1
  obtain ⟨_, _, ⟨r', h1', h2'⟩, _⟩ := C06_prefabs_kbest ([0, 0] : List ℝ) [[3, 3], [0, 5]] 1
  rw [h1] at h1'; cases h1'
  have hbig := maxFloat_big
  have s0 : HasScore (euclideanDistance ([0, 0] : List ℝ)) true [[3, 3], [0, 5]] 0 6 :=
    ⟨[3, 3], rfl, by rw [euclid_real [0, 0] [3, 3] rfl]; norm_num [l1], by
      simp only [Comparable, Better, if_true, rlt]; linarith⟩
  have s1 : HasScore (euclideanDistance ([0, 0] : List ℝ)) true [[3, 3], [0, 5]] 1 5 :=
    ⟨[0, 5], rfl, by rw [euclid_real [0, 0] [0, 5] rfl]; norm_num [l1], by
      simp only [Comparable, Better, if_true, rlt]; linarith⟩
  have hlen : r.length = 1 := by rw [h2.length]; simp
  obtain ⟨i, rfl⟩ := List.length_eq_one_iff.1 hlen
  obtain ⟨v, hv, _⟩ := h2.valid i (by simp)
  match i, hv with
  | 0, _ =>
    have := h2'.best 0 (by simp) 1 (by simp) 6 5 s0 s1
    simp only [Better, if_true, rlt] at this
    norm_num at this
  | 1, _ =>
    have := h2.best 1 (by simp) 0 (by simp) [0, 5] [3, 3] rfl rfl rfl
    have := (Real.sqrt_le_sqrt_iff (by norm_num [sqDist])).1 this
    norm_num [sqDist] at this

theorem euclid_sandwich {t v : List ℝ} (h : v.length = t.length) : euclideanDistance t v = some (l1 t v) ∧
    Real.sqrt (sqDist t v) ≤ l1 t v ∧ l1 t v ≤ Real.sqrt t.length * Real.sqrt (sqDist t v) := by
  obtain ⟨d, e1, e2, e3, _⟩ := C03_partial t v h.symm
  rw [euclid_real t v h.symm] at e1; cases e1
  exact ⟨euclid_real t v h.symm, e2, e3⟩

theorem euclid_length {t v : List ℝ} {s : ℝ} (h : euclideanDistance t v = some s) : v.length = t.length ∧ s = l1 t v := by
  have hl : t.length = v.length := by
    by_contra hne
    unfold euclideanDistance at h
    rw [if_pos hne] at h
    cases h
  rw [euclid_real t v hl] at h; cases h
  exact ⟨hl.symm, rfl⟩

/-- C127 in part, in exact arithmetic: what `KNNEuc` answers is at most `√d` times as far away as what it leaves out, and each answer at most
`√d` times as far as those after it, in dimension `d`; `KFNEuc` the other way around. Missing: the factor should be 1, which is false. -/
theorem C127_partial (t : List ℝ) (pool : List (List ℝ)) (k : Nat) :
    (∃ r, knnEuc t pool k = .ok r ∧ (∀ i ∈ r, ∃ v, pool[i]? = some v ∧ v.length = t.length) ∧
      (∀ i ∈ r, ∀ j, j ∉ r → ∀ v w, pool[i]? = some v → pool[j]? = some w → w.length = t.length →
        Real.sqrt (sqDist t v) ≤ Real.sqrt t.length * Real.sqrt (sqDist t w)) ∧
      r.Pairwise (fun i j => ∀ v w, pool[i]? = some v → pool[j]? = some w →
        Real.sqrt (sqDist t v) ≤ Real.sqrt t.length * Real.sqrt (sqDist t w))) ∧
    (∃ r, kfnEuc t pool k = .ok r ∧ (∀ i ∈ r, ∃ v, pool[i]? = some v ∧ v.length = t.length) ∧
      r.length = min k (pool.countP (fun v => v.length = t.length)) ∧
      (∀ i ∈ r, ∀ j, j ∉ r → ∀ v w, pool[i]? = some v → pool[j]? = some w → w.length = t.length →
        Real.sqrt (sqDist t w) ≤ Real.sqrt t.length * Real.sqrt (sqDist t v)) ∧
      r.Pairwise (fun i j => ∀ v w, pool[i]? = some v → pool[j]? = some w →
        Real.sqrt (sqDist t w) ≤ Real.sqrt t.length * Real.sqrt (sqDist t v))) := by
  obtain ⟨_, _, ⟨r, h1, h2⟩, ⟨r', h1', h2'⟩⟩ := C06_prefabs_kbest t pool k
  have score : ∀ {asc : Bool} {i : Nat} {s : ℝ} {v : List ℝ}, HasScore (euclideanDistance t) asc pool i s → pool[i]? = some v →
      v.length = t.length ∧ s = l1 t v := by
    rintro asc i s v ⟨v', e1, e2, _⟩ hv
    rw [hv] at e1; cases e1
    exact euclid_length e2
  have valid : ∀ {asc : Bool} {r : List Nat}, KBest (euclideanDistance t) asc pool k r → ∀ i ∈ r, ∃ v, pool[i]? = some v ∧ v.length = t.length := by
    intro asc r h i hi
    obtain ⟨s, v, e1, e2, _⟩ := h.valid i hi
    exact ⟨v, e1, (euclid_length e2).1⟩
  have far : ∀ {w : List ℝ}, w.length = t.length → Comparable false (l1 t w) := by
    intro w hw
    have h0 := maxFloat_big
    simp only [Comparable, Better, Bool.false_eq_true, if_false, rlt, rneg]
    linarith [l1_nonneg t w]
  refine ⟨⟨r, h1, valid h2, fun i hi j hj v w hv hw hwl => ?_, ?_⟩, ⟨r', h1', valid h2', ?_, fun i hi j hj v w hv hw hwl => ?_, ?_⟩⟩
  · obtain ⟨s, hs⟩ := h2.valid i hi
    obtain ⟨hvl, rfl⟩ := score hs hv
    obtain ⟨_, a2, _⟩ := euclid_sandwich hvl
    obtain ⟨b1, _, b3⟩ := euclid_sandwich hwl
    refine a2.trans (le_trans ?_ b3)
    by_cases hc : Comparable true (l1 t w)
    · have := h2.best i hi j hj _ _ hs ⟨w, hw, b1, hc⟩
      simpa only [Better, if_true, rlt, not_lt] using this
    · obtain ⟨v', _, _, hcv⟩ := hs
      simp only [Comparable, Better, if_true, rlt, not_lt] at hc hcv
      linarith
  · refine List.Pairwise.imp_of_mem (fun {i j} hi hj h v w hv hw => ?_) h2.sorted
    obtain ⟨s, hs⟩ := h2.valid i hi
    obtain ⟨s', hs'⟩ := h2.valid j hj
    have := h s s' hs hs'
    obtain ⟨hvl, rfl⟩ := score hs hv
    obtain ⟨hwl, rfl⟩ := score hs' hw
    simp only [Better, if_true, rlt, not_lt] at this
    exact (euclid_sandwich hvl).2.1.trans (this.trans (euclid_sandwich hwl).2.2)
  · rw [h2'.length]
    congr 1
    refine List.countP_congr (fun v _ => ?_)
    unfold isCandidate
    by_cases hl : v.length = t.length
    · rw [(euclid_sandwich hl).1]
      simp [hl, far hl]
    · have : euclideanDistance t v = none := by
        unfold euclideanDistance
        rw [if_pos (fun h => hl h.symm)]
      rw [this]
      simp [hl]
  · obtain ⟨s, hs⟩ := h2'.valid i hi
    obtain ⟨hvl, rfl⟩ := score hs hv
    obtain ⟨b1, b2, _⟩ := euclid_sandwich hwl
    have := h2'.best i hi j hj _ _ hs ⟨w, hw, b1, far hwl⟩
    simp only [Better, Bool.false_eq_true, if_false, rlt, not_lt] at this
    exact b2.trans (this.trans (euclid_sandwich hvl).2.2)
  · refine List.Pairwise.imp_of_mem (fun {i j} hi hj h v w hv hw => ?_) h2'.sorted
    obtain ⟨s, hs⟩ := h2'.valid i hi
    obtain ⟨s', hs'⟩ := h2'.valid j hj
    have := h s s' hs hs'
    obtain ⟨hvl, rfl⟩ := score hs hv
    obtain ⟨hwl, rfl⟩ := score hs' hw
    simp only [Better, Bool.false_eq_true, if_false, rlt, not_lt] at this
    exact (euclid_sandwich hwl).2.1.trans (this.trans (euclid_sandwich hvl).2.2)

/-- C127: on a line the factor is 1. -/
example (x : ℝ) (pool : List (List ℝ)) : ∃ r, knnEuc [x] pool 3 = .ok r ∧ ∀ i ∈ r, ∀ j, j ∉ r → ∀ y z, pool[i]? = some [y] → pool[j]? = some [z] →
    |x - y| ≤ |x - z| := by
  obtain ⟨⟨r, h1, _, h3, _⟩, _⟩ := C127_partial [x] pool 3
  refine ⟨r, h1, fun i hi j hj y z hy hz => ?_⟩
  have := h3 i hi j hj _ _ hy hz rfl
  simpa [sqDist, Real.sqrt_sq_eq_abs] using this

/-- C127: of (1,1), (0,5), (3,3) and a vector of another dimension, the two nearest to the origin are found, and the two farthest are not
in the right order. -/
example : knnEuc [F64.ofInt 0, .ofInt 0] [[.ofInt 0, .ofInt 5], [.ofInt 1], [.ofInt 3, .ofInt 3], [.ofInt 1, .ofInt 1]] 2 = .ok [3, 0] ∧
    kfnEuc [F64.ofInt 0, .ofInt 0] [[.ofInt 0, .ofInt 5], [.ofInt 1], [.ofInt 3, .ofInt 3], [.ofInt 1, .ofInt 1]] 2 = .ok [2, 0] := by
  decide +kernel

/-! ### C128: vectors of equal norm -/

theorem sqDist_inner : ∀ {t v : List ℝ}, v.length = t.length → sqDist t v = inner t t + inner v v - 2 * inner t v
  | [], [], _ => by simp [sqDist, Spec.inner]
  | a :: t, b :: v, h => by
    have ih := sqDist_inner (t := t) (v := v) (by simpa using h)
    simp only [sqDist, Spec.inner, List.zip_cons_cons, List.map_cons, List.sum_cons] at ih ⊢
    rw [ih]; ring
  | [], _ :: _, h => by simp at h
  | _ :: _, [], h => by simp at h

theorem inner_of_len_zero : ∀ {t v : List ℝ}, len t = 0 → inner t v = 0 := by
  intro t v h
  have h0 : inner t t = 0 := by rw [← len_sq, h]; simp
  clear h
  induction t generalizing v with
  | nil => simp [Spec.inner]
  | cons a t ih =>
    cases v with
    | nil => simp [Spec.inner]
    | cons b v =>
      have hn := inner_self_nonneg t
      simp only [Spec.inner, List.zip_cons_cons, List.map_cons, List.sum_cons] at h0 ih hn ⊢
      have ha : a * a = 0 := by nlinarith [mul_self_nonneg a]
      have hr : (List.map (fun p => p.1 * p.2) (t.zip t)).sum = 0 := by nlinarith [mul_self_nonneg a]
      rw [ih hr, mul_self_eq_zero.1 ha]; simp

theorem inner_comm' : ∀ (t v : List ℝ), inner t v = inner v t
  | [], v => by simp [Spec.inner]
  | a :: t, [] => by simp [Spec.inner]
  | a :: t, b :: v => by
    have := inner_comm' t v
    simp only [Spec.inner, List.zip_cons_cons, List.map_cons, List.sum_cons] at this ⊢
    rw [this, mul_comm]

/-- Among vectors of one norm, more similar is nearer. -/
theorem sim_le_iff {t v w : List ℝ} {ν : ℝ} (hv : v.length = t.length) (hw : w.length = t.length) (lv : len v = ν) (lw : len w = ν)
    (h : inner t w / (len t * len w) ≤ inner t v / (len t * len v)) : sqDist t v ≤ sqDist t w := by
  rw [sqDist_inner hv, sqDist_inner hw, ← len_sq v, ← len_sq w, lv, lw]
  have : inner t w ≤ inner t v := by
    have hν : 0 ≤ ν := by rw [← lv]; exact Real.sqrt_nonneg _
    have ht : 0 ≤ len t := Real.sqrt_nonneg _
    rcases eq_or_lt_of_le hν with h0 | h0
    · rw [inner_comm' t w, inner_comm' t v, inner_of_len_zero (lw.trans h0.symm), inner_of_len_zero (lv.trans h0.symm)]
    · rcases eq_or_lt_of_le ht with h1 | h1
      · rw [inner_of_len_zero h1.symm, inner_of_len_zero h1.symm]
      · rw [lv, lw] at h
        exact (div_le_div_iff_of_pos_right (mul_pos h1 h0)).1 h
  linarith

/-- C128, in exact arithmetic: on a pool of vectors of equal norm `KNNCos` answers the nearest `k` by Euclidean distance, nearest first, and
`KFNCos` the farthest `k`, farthest first; the target may have any norm, even 0. Vectors of other dimensions are left out. -/
theorem C128_unit_norm (t : List ℝ) (pool : List (List ℝ)) (k : Nat) {ν : ℝ} (hν : ∀ v ∈ pool, v.length = t.length → len v = ν) :
    (∃ r, knnCos t pool k = .ok r ∧ ClosestFirst (fun v => Real.sqrt (sqDist t v)) t.length pool k r) ∧
    (∃ r, kfnCos t pool k = .ok r ∧ ClosestFirst (fun v => - Real.sqrt (sqDist t v)) t.length pool k r) := by
  obtain ⟨⟨r, h1, h2⟩, ⟨r', h1', h2'⟩, _⟩ := C06_prefabs_kbest t pool k
  have cand : ∀ {asc : Bool} {v : List ℝ}, v.length = t.length → Comparable asc (inner t v / (len t * len v)) := by
    intro asc v hv
    obtain ⟨s, hs, hs1, hs2⟩ := cos_real_bound t v hv
    rw [cos_real_all hv] at hs; cases hs
    have h0 := maxFloat_big
    cases asc
    · simp only [Comparable, Better, Bool.false_eq_true, if_false, rlt, rneg]; linarith
    · simp only [Comparable, Better, if_true, rlt]; linarith
  have scored : ∀ {asc : Bool} {i : Nat} {v : List ℝ}, pool[i]? = some v → v.length = t.length →
      HasScore (cosineSimilarity t) asc pool i (inner t v / (len t * len v)) :=
    fun hi hv => ⟨_, hi, cos_real_all hv, cand hv⟩
  have valid : ∀ {asc : Bool} {r : List Nat}, KBest (cosineSimilarity t) asc pool k r → ∀ i ∈ r, ∃ v, pool[i]? = some v ∧ v.length = t.length := by
    intro asc r h i hi
    obtain ⟨s, v, e1, e2, _⟩ := h.valid i hi
    refine ⟨v, e1, ?_⟩
    by_contra hne
    rw [(C04_cos_fails_iff t v).2 (fun h => hne h.symm)] at e2
    cases e2
  have count : ∀ {asc : Bool} {r : List Nat}, KBest (cosineSimilarity t) asc pool k r →
      r.length = min k (pool.countP (fun v => v.length = t.length)) := by
    intro asc r h
    rw [h.length]
    congr 1
    refine List.countP_congr (fun v _ => ?_)
    unfold isCandidate
    by_cases hl : v.length = t.length
    · rw [cos_real_all hl]
      simp [hl, cand hl]
    · rw [(C04_cos_fails_iff t v).2 (fun h => hl h.symm)]
      simp [hl]
  have near : ∀ {v w : List ℝ}, v ∈ pool → w ∈ pool → v.length = t.length → w.length = t.length →
      inner t w / (len t * len w) ≤ inner t v / (len t * len v) → Real.sqrt (sqDist t v) ≤ Real.sqrt (sqDist t w) :=
    fun hv hw lv lw h => Real.sqrt_le_sqrt (sim_le_iff lv lw (hν _ hv lv) (hν _ hw lw) h)
  refine ⟨⟨r, h1, h2.nodup, valid h2, count h2, ?_, fun i hi j hj v w hv hw hwl => ?_⟩,
    ⟨r', h1', h2'.nodup, valid h2', count h2', ?_, fun i hi j hj v w hv hw hwl => ?_⟩⟩
  · refine List.Pairwise.imp_of_mem (fun {i j} hi hj h v w hv hw => ?_) h2.sorted
    obtain ⟨v', hv', lv⟩ := valid h2 i hi
    rw [hv] at hv'; cases hv'
    obtain ⟨w', hw', lw⟩ := valid h2 j hj
    rw [hw] at hw'; cases hw'
    have := h _ _ (scored hv lv) (scored hw lw)
    simp only [Better, Bool.false_eq_true, if_false, rlt, not_lt] at this
    exact near (List.mem_of_getElem? hv) (List.mem_of_getElem? hw) lv lw this
  · obtain ⟨v', hv', lv⟩ := valid h2 i hi
    rw [hv] at hv'; cases hv'
    have := h2.best i hi j hj _ _ (scored hv lv) (scored hw hwl)
    simp only [Better, Bool.false_eq_true, if_false, rlt, not_lt] at this
    exact near (List.mem_of_getElem? hv) (List.mem_of_getElem? hw) lv hwl this
  · refine List.Pairwise.imp_of_mem (fun {i j} hi hj h v w hv hw => ?_) h2'.sorted
    obtain ⟨v', hv', lv⟩ := valid h2' i hi
    rw [hv] at hv'; cases hv'
    obtain ⟨w', hw', lw⟩ := valid h2' j hj
    rw [hw] at hw'; cases hw'
    have := h _ _ (scored hv lv) (scored hw lw)
    simp only [Better, if_true, rlt, not_lt] at this
    exact neg_le_neg (near (List.mem_of_getElem? hw) (List.mem_of_getElem? hv) lw lv this)
  · obtain ⟨v', hv', lv⟩ := valid h2' i hi
    rw [hv] at hv'; cases hv'
    have := h2'.best i hi j hj _ _ (scored hv lv) (scored hw hwl)
    simp only [Better, if_true, rlt, not_lt] at this
    exact neg_le_neg (near (List.mem_of_getElem? hw) (List.mem_of_getElem? hv) hwl lv this)

/-- C128: four vectors of norm 5. -/
example (t : List ℝ) (ht : t.length = 2) : ∃ r, knnCos t [[3, 4], [5, 0], [0, -5], [-4, 3]] 2 = .ok r ∧
    ClosestFirst (fun v => Real.sqrt (sqDist t v)) 2 [[3, 4], [5, 0], [0, -5], [-4, 3]] 2 r := by
  have := (C128_unit_norm t [[3, 4], [5, 0], [0, -5], [-4, 3]] 2 (ν := 5) (by
    have h5 : Real.sqrt 25 = 5 := by rw [show (25 : ℝ) = 5 ^ 2 by norm_num, Real.sqrt_sq (by norm_num)]
    intro v hv _
    simp only [List.mem_cons, List.not_mem_nil, or_false] at hv
    rcases hv with rfl | rfl | rfl | rfl <;> norm_num [len, Spec.inner] <;> exact h5)).1
  rwa [ht] at this

/-- C128: the same on IEEE floats, for the target `(1, 1)`. -/
example : knnCos [F64.ofInt 1, .ofInt 1] [[.ofInt 3, .ofInt 4], [.ofInt 5, .ofInt 0], [.ofInt 0, .ofInt (-5)], [.ofInt (-4), .ofInt 3]] 2 =
    .ok [0, 1] := by
  decide +kernel

/-- C128 needs the equal norms: of `(100, 1)` and `(1, 1)` the former is the more similar to `(1, 0)`, and the latter is the nearer one. -/
example : knnCos [F64.ofInt 1, .ofInt 0] [[.ofInt 1, .ofInt 1], [.ofInt 100, .ofInt 1]] 1 = .ok [1] := by
  decide +kernel

end Trypo
