import Verif.Proofs.Spread
import Verif.Props.Rob

/-!
Stealing of centroids in float64, for vectors with positive components.
-/

namespace Trypo
open GoFloat Spec F64

namespace Keep

variable {env : Env} {D : NS → Nat} {lo hi : ℝ} {N : Nat} {fac : Factory F64} {nodes : List Addr} {ns : NS}

/-- One manager is replaced. -/
theorem put_perm (hnd : nodes.Nodup) {b : Addr} (hb : b ∈ nodes) {w : World F64} (hw : WorldOK D w) {i : Nat} {m : Manager F64}
    (hl : w.lookup b ns = some i) (hix : w.heap[i]? = some (ns, m)) (m' : Manager F64) :
    (storedAt (w.put i ns m') nodes ns ++ stored m).Perm (storedAt w nodes ns ++ stored m') := by
  have hg : w.get b ns = some m := by simp [World.get, hl, hix]
  obtain ⟨rest, t', hrest⟩ := List.append_of_mem hb
  have hp : nodes.Perm (b :: (rest ++ t')) := by rw [hrest]; exact List.perm_middle
  have hna := List.nodup_cons.1 (hp.nodup_iff.1 hnd)
  have k1 := storedAt_perm (w := w.put i ns m') ns hp
  have k2 := storedAt_perm (w := w) ns hp
  rw [storedAt_cons, storedAt_one (get_put_self hl hix),
    storedAt_congr (w := w) (w' := w.put i ns m') (l := rest ++ t') (fun c hc => get_put_other hw hl hix (.inl (by rintro rfl; exact hna.1 hc)))] at k1
  rw [storedAt_cons, storedAt_one hg] at k2
  permc [k1, k2]

theorem State.put (hlh : Range lo hi) (hN : 16 * (N : ℝ) * (N + 2) * hi ≤ 2 ^ 53 * lo) (hnd : nodes.Nodup) {b : Addr} (hb : b ∈ nodes)
    {w : World F64} {p q : Nat} (hs : State D lo hi N nodes ns p w) (hpq : p ≤ q) {i : Nat} {m m' : Manager F64}
    (hl : w.lookup b ns = some i) (hix : w.heap[i]? = some (ns, m)) (hm : MOK (D ns) m')
    (hk : Life.Keeps knnCos kfnCos (Positive.Sound knnCos kfnCos lo hi N) q m') (hlive : ∀ d ∈ stored m', d.expireEnabled = false) :
    State D lo hi N nodes ns q (w.put i ns m') := by
  refine ⟨hs.ok.put hix hm.ok, fun c m2 hc => ?_, fun d hd => ?_⟩
  · by_cases hcb : c = b
    · subst hcb
      rw [get_put_self hl hix] at hc
      cases hc
      exact hk
    · rw [get_put_other hs.ok hl hix (.inl hcb)] at hc
      exact (hs.good _ _ hc).mono (Positive.life hlh hN knnCos kfnCos) hpq
  · rcases List.mem_append.1 ((put_perm hnd hb hs.ok hl hix m').subset (List.mem_append_left _ hd)) with h | h
    · exact hs.live d h
    · exact hlive d h

theorem State.livesAt {w : World F64} {p : Nat} (hs : State D lo hi N nodes ns p w) {b : Addr} (hb : b ∈ nodes) {m : Manager F64} (hg : w.get b ns = some m) :
    ∀ d ∈ stored m, d.expireEnabled = false :=
  fun d hd => hs.live d (storedAt_get hb (by rw [storedAt_one hg]; exact hd))

/-- A centroid that is built from all that another one held. -/
theorem wp_reinit_kept (he : EnvOK env) (hlh : Range lo hi) (hN : 16 * (N : ℝ) * (N + 2) * hi ≤ 2 ^ 53 * lo) {c : Centroid F64} {p : Nat}
    (hc : Positive.Sound knnCos kfnCos lo hi N p c) (hne : c.dps ≠ []) (hlive : ∀ d ∈ c.dps, d.expireEnabled = false) :
    Go.wp (Client.reinit env.tk c.dps) (fun x q => p ≤ q ∧ Positive.Sound knnCos kfnCos lo hi N q x ∧ x.dps = c.dps ∧ x.vec.length = c.vec.length) p := by
  have L := Positive.life hlh hN knnCos kfnCos
  have hs := L.searches hc
  have hdc := L.dim hc
  have hL : ∀ l, c.dps = l → Go.wp (Client.reinit env.tk l) (fun x q => p ≤ q ∧ Positive.Sound knnCos kfnCos lo hi N q x ∧ x.dps = l ∧ x.vec.length = c.vec.length) p := by
    intro l hl
    cases l with
    | nil => exact absurd hl hne
    | cons d l =>
      unfold Client.reinit Client.centroidFactory Centroid.new
      simp only [Go.wp_bind, Go.wp_idx]
      refine ⟨d, rfl, ?_⟩
      simp only [Go.wp_checkMake, Go.wp_pure]
      refine ⟨by omega, ?_⟩
      have hlen : ∀ x ∈ d :: l, x.vec.length = c.vec.length := fun x hx => hdc x (by rw [hl]; exact hx)
      have hd : Centroid.DimOK (⟨d.vec, d :: l, knnCos, kfnCos⟩ : Centroid F64) := by
        intro x hx
        show x.vec.length = d.vec.length
        rw [hlen x hx, hlen d (by simp)]
      refine Go.wp_mono (Centroid.wp_moveVector he.clock _ hd p) (fun r q hr => ?_)
      obtain ⟨c1, h1, h2⟩ := hr
      have e1 : c1.dps = d :: l := purged_same h1 (fun x hx q h => by
        have h3 := hlive x (by rw [hl]; exact hx)
        rw [h.1] at h3
        cases h3)
      have e2 : c1.knn = knnCos ∧ c1.kfn = kfnCos := by
        obtain ⟨removed, h4, _⟩ := h1.steps
        exact h4.search
      have hf : (vecMean (c.dps.map (fun d => d.vec))).2 = true := by
        refine (C01_vecMean_flag _).1.2 ⟨d.vec, by rw [hl]; rfl, fun v hv => ?_⟩
        obtain ⟨x, hx, rfl⟩ := List.mem_map.1 hv
        rw [hdc x hx, hlen d (by simp)]
      have hf1 : (vecMean (c1.dps.map (fun d => d.vec))).2 = true := by rw [e1, ← hl]; exact hf
      rw [if_pos hf1] at h2
      have hx : r.2 = { c with vec := (vecMean (c.dps.map (fun d => d.vec))).1 } := by
        rw [h2, hl, e1]
        obtain ⟨v1, l1, k1, f1⟩ := c1
        obtain ⟨v2, l2, k2, f2⟩ := c
        simp only at e1 e2 hs hl
        rw [e1, hl, e2.1, e2.2, hs.1, hs.2]
      have hP : Positive.Sound knnCos kfnCos lo hi N q r.2 := by
        rw [hx]
        exact L.move (L.mono hc h1.le) hf
      refine ⟨h1.le, hP, by rw [hx]; exact hl, ?_⟩
      rw [hx]
      show (vecMean (c.dps.map (fun d => d.vec))).1.length = _
      rw [(C01_vecMean_flag _).2 d.vec (by rw [hl]; rfl), hlen d (by simp)]
  exact hL _ rfl

/-- What one call to another node brings. -/
inductive Carried (D : NS → Nat) (lo hi : ℝ) (N : Nat) (nodes : List Addr) (src : Addr) (ns : NS) (w : World F64) (p' : Nat) :
    (Bool × Option (List (Centroid F64))) × World F64 → Prop
  | nothing {b : Bool} (h : State D lo hi N nodes ns p' w) : Carried D lo hi N nodes src ns w p' ((b, none), w)
  | empty {w' : World F64} (h : State D lo hi N nodes ns p' w') (hp : (storedAt w' nodes ns).Perm (storedAt w nodes ns)) :
      Carried D lo hi N nodes src ns w p' ((false, some []), w')
  | centroid {w' : World F64} {x : Centroid F64} (h : State D lo hi N nodes ns p' w') (hx : Positive.Sound knnCos kfnCos lo hi N p' x)
      (hl : x.vec.length = D ns) (hlive : ∀ d ∈ x.dps, d.expireEnabled = false)
      (hp : (x.dps ++ storedAt w' nodes ns).Perm (storedAt w nodes ns)) : Carried D lo hi N nodes src ns w p' ((false, some [x]), w')

theorem wp_nearest1_kept (he : EnvOK env) (hnd : nodes.Nodup) (hlh : Range lo hi) (hN : 16 * (N : ℝ) * (N + 2) * hi ≤ 2 ^ 53 * lo)
    {src : Addr} (hsrc : src ∈ nodes) (hr : Reachable env src) {w : World F64} {p : Nat} (hs : State D lo hi N nodes ns p w) (v : List F64) :
    Go.wp ((Client.nearestCentroids env src ns v 1 true).run w) (fun r p' => p ≤ p' ∧ (∀ b, b ≠ src → r.2.get b ns = w.get b ns) ∧
      Carried D lo hi N nodes src ns w p' r) p := by
  have L := Positive.life hlh hN knnCos kfnCos
  unfold Client.nearestCentroids Client.call
  rw [run_bind, Go.wp_bind, run_bind, Go.wp_bind, run_loc, Go.wp_bind]
  refine wp_sent ?_
  rw [Go.wp_pure]
  simp only [hr.1 p, if_true]
  rw [run_bind, Go.wp_bind]
  unfold Server.nearestCentroids
  cases hg : w.get src ns with
  | none =>
    rw [run_access_none ((get_eq_none_iff hs.ok).1 hg), Go.wp_pure, run_bind, Go.wp_bind, run_loc, Go.wp_bind]
    refine wp_arrived ?_
    rw [Go.wp_pure]
    simp only [hr.2 _, if_true, run_pure, Go.wp_pure, Option.getD_none, Option.isNone_none]
    rw [run_bind, Go.wp_bind, run_loc, Go.wp_bind]
    simp only [run_pure, Go.wp_pure, Client.unpack, List.length_nil, if_true]
    exact ⟨by omega, fun _ _ => trivial, .nothing (hs.mono hlh hN (by omega))⟩
  | some s =>
    obtain ⟨i, hl, hix⟩ := lookup_of_get hs.ok hg
    have hok := hs.ok.mok hix
    have hks := hs.good src s hg
    have hput : w.put i ns s = w := by
      unfold World.put
      obtain ⟨hlt, hi'⟩ := List.getElem?_eq_some_iff.1 hix
      rw [← hi', List.set_getElem_self]
    rw [run_access_some hl hix]
    simp only [Go.wp_bind]
    refine Go.wp_mono (Go.wp_wlp (Manager.wp_nearest_one hok.wf hok.knn v (p + 1)) (Life.nearestCentroids (hks.mono L (Nat.le_succ p)) v 1 true)) (fun q p1 hq => ?_)
    obtain ⟨⟨rfl, hq⟩, _, hkq⟩ := hq
    simp only [Go.wp_pure]
    rw [run_bind, Go.wp_bind, run_loc, Go.wp_bind]
    refine wp_arrived ?_
    rw [Go.wp_pure]
    simp only [hr.2 _, if_true, run_pure, Go.wp_pure, Option.getD_some, Option.isNone_some]
    rw [run_bind, Go.wp_bind, run_loc, Go.wp_bind]
    simp only [run_pure, Go.wp_pure]
    rcases hq with ⟨e1, e2⟩ | ⟨j, c, e1, e2, e3, e4, d1⟩
    · rw [e1]
      simp only [Option.getD_none, List.map_nil, Client.unpack, List.length_nil, if_true, Go.wp_pure, hput]
      exact ⟨by omega, fun _ _ => trivial, .nothing (hs.mono hlh hN (by omega))⟩
    · have hmok : MOK (D ns) q.2 := ⟨d1.wf hok.wf, d1.same.knn.trans hok.knn, d1.same.kfn.trans hok.kfn,
        (d1.vec_length hok.wf).trans hok.len⟩
      have hcm : c ∈ s.centroids := List.mem_of_getElem? e2
      have hperm : (c.dps ++ stored q.2).Perm (stored s) := by
        unfold stored
        rw [e4]
        simpa using (Centroid.perm_eraseIdx e2).flatMap_right (fun c => c.dps)
      have hlq : ∀ d ∈ stored q.2, d.expireEnabled = false := fun d hd => hs.livesAt hsrc hg d (hperm.subset (List.mem_append_right _ hd))
      have hlc : ∀ d ∈ c.dps, d.expireEnabled = false := fun d hd => hs.livesAt hsrc hg d (hperm.subset (List.mem_append_left _ hd))
      have hst : ∀ p2, p + 1 ≤ p2 → State D lo hi N nodes ns p2 (w.put i ns q.2) := fun p2 h2 =>
        hs.put hlh hN hnd hsrc (by omega) hl hix hmok (hkq.mono L h2) hlq
      have hpp := put_perm hnd hsrc hs.ok hl hix q.2
      have hot : ∀ b, b ≠ src → (w.put i ns q.2).get b ns = w.get b ns := fun b hb => get_put_other hs.ok hl hix (.inl hb)
      rw [e3]
      simp only [Option.getD_some, List.map_cons, List.map_nil, Client.unpack, List.length_singleton, Nat.one_ne_zero, if_false]
      cases hc : c.dps with
      | nil =>
        simp only [Client.dropEmpty, Client.reinitAll, Go.wp_bind, Go.wp_pure]
        refine ⟨by omega, hot, .empty (hst _ (by omega)) ?_⟩
        rw [hc] at hperm
        permc [hperm, hpp]
      | cons d ds =>
        simp only [Client.dropEmpty, Client.reinitAll, Go.wp_bind, Go.wp_pure]
        rw [← hc]
        refine Go.wp_mono (wp_reinit_kept he hlh hN (L.mono (hks.all c hcm) (by omega)) (by rw [hc]; simp) hlc) (fun x p3 hx => ?_)
        obtain ⟨x1, x2, x3, x4⟩ := hx
        refine ⟨by omega, hot, .centroid (hst _ (by omega)) x2 ?_ (by rw [x3]; exact hlc) ?_⟩
        · rw [x4, (hok.wf.dim c hcm).1, hok.len]
        · rw [x3]
          permc [hperm, hpp]

theorem wp_stealLoop_kept (he : EnvOK env) (hnd : nodes.Nodup) (hlh : Range lo hi) (hN : 16 * (N : ℝ) * (N + 2) * hi ≤ 2 ^ 53 * lo)
    {a src : Addr} (ha : a ∈ nodes) (hne : a ≠ src) (hsrc : src ∈ nodes) (hr : Reachable env src) (v : List F64) (limit : Int) :
    ∀ (fuel n : Nat) (w : World F64) (p : Nat), State D lo hi N nodes ns p w → w.get a ns ≠ none →
    Go.wp ((Server.stealLoop env a ns src v limit fuel n).run w) (fun r q => p ≤ q ∧ State D lo hi N nodes ns q r.2 ∧ r.2.get a ns ≠ none ∧
      (storedAt r.2 nodes ns).Perm (storedAt w nodes ns)) p
  | 0, n, w, p, hs, hg => by
    unfold Server.stealLoop
    rw [run_pure, Go.wp_pure]
    exact ⟨Nat.le_refl _, hs, hg, .refl _⟩
  | fuel + 1, n, w, p, hs, hg => by
    unfold Server.stealLoop
    split
    · rw [run_bind, Go.wp_bind]
      refine Go.wp_mono (wp_nearest1_kept he hnd hlh hN hsrc hr hs v) (fun q p1 hq => ?_)
      obtain ⟨q1, q2, q3⟩ := hq
      cases q3 with
      | nothing h =>
        rw [run_pure, Go.wp_pure]
        exact ⟨q1, h, hg, .refl _⟩
      | empty h hp =>
        rw [run_pure, Go.wp_pure]
        exact ⟨q1, h, by rw [q2 a hne]; exact hg, hp⟩
      | @centroid w' x h hx hxl hlive hp =>
        simp only
        obtain ⟨m, hm⟩ := Option.ne_none_iff_exists'.1 hg
        rw [← q2 a hne] at hm
        obtain ⟨i, hl, hix⟩ := lookup_of_get h.ok hm
        have hma := h.ok.mok hix
        have L := Positive.life hlh hN knnCos kfnCos
        have hm2 : MOK (D ns) { m with centroids := m.centroids ++ [x] } := by
          refine ⟨hma.wf.append ?_ ?_, hma.knn, hma.kfn, hma.len⟩
          · intro y hy; rw [List.mem_singleton.1 hy, hma.knn, hma.kfn]; exact L.searches hx
          · intro y hy; rw [List.mem_singleton.1 hy, hma.len]
            exact ⟨hxl, L.dim hx⟩
        have hst : stored { m with centroids := m.centroids ++ [x] } = stored m ++ x.dps := by simp [stored]
        have hs2 : State D lo hi N nodes ns p1 (w'.put i ns { m with centroids := m.centroids ++ [x] }) := by
          refine h.put hlh hN hnd ha (Nat.le_refl _) hl hix hm2 ⟨(h.good a m hm).searches, fun y hy => ?_⟩ (fun d hd => ?_)
          · rcases List.mem_append.1 hy with hy | hy
            · exact (h.good a m hm).all y hy
            · rw [List.mem_singleton.1 hy]; exact hx
          · rw [hst] at hd
            rcases List.mem_append.1 hd with hd | hd
            · exact h.livesAt ha hm d hd
            · exact hlive d hd
        have hpp := put_perm hnd ha h.ok hl hix { m with centroids := m.centroids ++ [x] }
        rw [hst] at hpp
        rw [run_bind, run_access_some hl hix, Go.wp_bind]
        simp only [pure_bind, Go.wp_pure, Option.getD_some]
        refine Go.wp_mono (wp_stealLoop_kept he hnd hlh hN ha hne hsrc hr v limit fuel (n + x.lenDP) _ p1 hs2 (by rw [get_put_self hl hix]; simp)) (fun r p2 hrr => ?_)
        obtain ⟨r1, r2, r3, r4⟩ := hrr
        refine ⟨q1.trans r1, r2, r3, ?_⟩
        permc [r4, hpp, hp]
    · rw [run_pure, Go.wp_pure]
      exact ⟨Nat.le_refl _, hs, hg, .refl _⟩

theorem wp_stealWith_kept (he : EnvOK env) (hnd : nodes.Nodup) (hlh : Range lo hi) (hN : 16 * (N : ℝ) * (N + 2) * hi ≤ 2 ^ 53 * lo)
    {a src : Addr} (ha : a ∈ nodes) (hne : a ≠ src) (hsrc : src ∈ nodes) (hr : Reachable env src) (v : List F64) (limit : Int)
    (fuel : Nat) {w : World F64} {p : Nat} (hs : State D lo hi N nodes ns p w) (hg : w.get a ns ≠ none) :
    Go.wp ((Server.stealWith env fuel a ns src limit v).run w) (fun r q => p ≤ q ∧ State D lo hi N nodes ns q r.2 ∧
      (storedAt r.2 nodes ns).Perm (storedAt w nodes ns)) p := by
  have L := Positive.life hlh hN knnCos kfnCos
  unfold Server.stealWith
  rw [run_bind, Go.wp_bind]
  refine Go.wp_mono (wp_stealLoop_kept he hnd hlh hN ha hne hsrc hr v limit fuel 0 w p hs hg) (fun q p1 hq => ?_)
  obtain ⟨q1, q2, q3, q4⟩ := hq
  obtain ⟨m, hm⟩ := Option.ne_none_iff_exists'.1 q3
  obtain ⟨i, hl, hix⟩ := lookup_of_get q2.ok hm
  have hok := q2.ok.mok hix
  rw [run_bind, Go.wp_bind, run_access_some hl hix, Go.wp_bind]
  refine Go.wp_mono (Go.wp_wlp (Manager.wp_moveVector he.clock hok.wf p1) (L.moveManager he.clock (q2.good a m hm))) (fun r p2 hrr => ?_)
  obtain ⟨⟨heff, _⟩, hle, hk⟩ := hrr
  simp only [Go.wp_pure, run_pure]
  have hlm := q2.livesAt ha hm
  have hperm : (stored r.2).Perm (stored m) := by
    have h := Round.conserved_live heff.conserved (fun d hd => hlm d hd)
    rw [List.append_nil] at h
    exact h
  have hpp := put_perm hnd ha q2.ok hl hix r.2
  refine ⟨q1.trans hle, q2.put hlh hN hnd ha hle hl hix (hok.of_eff heff (by simp)) hk (fun d hd => hlm d (hperm.subset hd)), ?_⟩
  permc [hpp, hperm, q4]

/-- Stealing. -/
theorem wp_steal_kept (he : EnvOK env) (hf : FactoryOK fac) (hnd : nodes.Nodup) (hlh : Range lo hi) (hN : 16 * (N : ℝ) * (N + 2) * hi ≤ 2 ^ 53 * lo)
    {a src : Addr} (ha : a ∈ nodes) (hne : a ≠ src) (hsrc : src ∈ nodes) (hr : Reachable env src) (limit : Int)
    (fuel : Nat) {w : World F64} {p : Nat} (hs : State D lo hi N nodes ns p w) :
    Go.wp ((Server.stealCentroid env fac fuel a ns src limit).run w) (fun r q => p ≤ q ∧ State D lo hi N nodes ns q r.2 ∧
      (storedAt r.2 nodes ns).Perm (storedAt w nodes ns)) p := by
  have L := Positive.life hlh hN knnCos kfnCos
  unfold Server.stealCentroid
  cases hga : w.get a ns with
  | some m =>
    obtain ⟨i, hl, hix⟩ := lookup_of_get hs.ok hga
    have hput : w.put i ns m = w := by
      unfold World.put
      obtain ⟨hlt, hi'⟩ := List.getElem?_eq_some_iff.1 hix
      rw [← hi', List.set_getElem_self]
    rw [run_bind, run_access_some hl hix]
    simp only [pure_bind, hput]
    exact wp_stealWith_kept he hnd hlh hN ha hne hsrc hr _ limit fuel hs (by rw [hga]; simp)
  | none =>
    have hl := (get_eq_none_iff hs.ok).1 hga
    rw [run_bind, run_access_none hl]
    simp only [pure_bind]
    rw [run_bind, Go.wp_bind]
    refine Go.wp_mono (wp_vec_heard (env := env) hs.ok src ns p) (fun q p1 hq => ?_)
    obtain ⟨q1, q2, q3⟩ := hq
    have hq1 := heard_reachable hr q3
    cases hv : q.1.getD [] with
    | nil =>
      simp only [run_pure, Go.wp_pure]
      rw [q2]
      exact ⟨q1, hs.mono hlh hN q1, .refl _⟩
    | cons y ys =>
      have hyl : (y :: ys).length = D ns := by
        cases hgs : w.get src ns with
        | none => rw [hq1, hgs] at hv; simp at hv
        | some s =>
          obtain ⟨_, _, his⟩ := lookup_of_get hs.ok hgs
          rw [hq1, hgs] at hv
          simp only [Option.map_some, Option.getD_some] at hv
          rw [← hv]; exact (hs.ok.mok his).len
      simp only
      rw [run_bind, run_loc, Go.wp_bind, Go.wp_bind]
      refine safe_make hf hyl p1 (fun m hmok hc => ?_)
      rw [Go.wp_pure, q2]
      simp only
      rw [run_bind, run_addSlot, Go.wp_bind, Go.wp_pure]
      have hoth : ∀ b, b ≠ a → (w.addSlot a ns m).get b ns = w.get b ns := fun b hb =>
        get_addSlot_of_lookup hs.ok (lookup_addSlot_node w hb ns ns m)
      have hst : storedAt (w.addSlot a ns m) nodes ns = storedAt w nodes ns := by
        unfold storedAt
        refine List.flatMap_congr fun b hb => ?_
        by_cases hba : b = a
        · subst hba
          rw [get_addSlot, hga]
          simp [stored, hc]
        · rw [hoth b hba]
      have hs1 : State D lo hi N nodes ns p1 (w.addSlot a ns m) := by
        refine ⟨hs.ok.addSlot a hmok.ok, fun b m' hb => ?_, by rw [hst]; exact hs.live⟩
        by_cases hba : b = a
        · subst hba
          rw [get_addSlot] at hb
          cases hb
          exact ⟨⟨hmok.knn, hmok.kfn⟩, by rw [hc]; simp⟩
        · rw [hoth b hba] at hb
          exact (hs.good _ _ hb).mono L q1
      refine Go.wp_mono (wp_stealWith_kept he hnd hlh hN ha hne hsrc hr (y :: ys) limit fuel hs1 (by rw [get_addSlot]; simp)) (fun r p' h => ?_)
      rw [hst] at h
      exact ⟨q1.trans h.1, h.2⟩

/-- Stealing, by a client. -/
theorem steal_kept (he : EnvOK env) (hf : FactoryOK fac) (hnd : nodes.Nodup) (hlh : Range lo hi) (hN : 16 * (N : ℝ) * (N + 2) * hi ≤ 2 ^ 53 * lo)
    {a src : Addr} (ha : a ∈ nodes) (hne : a ≠ src) (hsrc : src ∈ nodes) (hra : Reachable env a) (hr : Reachable env src) (limit : Int)
    (fuel : Nat) {w : World F64} {p : Nat} (hs : State D lo hi N nodes ns p w) :
    ∃ r w' p', (Client.stealCentroids env fac fuel a ns src limit).run w p = .ok ((r, w'), p') ∧ p ≤ p' ∧ State D lo hi N nodes ns p' w' ∧
      (storedAt w' nodes ns).Perm (storedAt w nodes ns) := by
  obtain ⟨⟨o, w'⟩, p', e, e1, e2, e3⟩ := Go.wp_iff.1 (wp_steal_kept he hf hnd hlh hN ha hne hsrc hr limit fuel (hs.mono hlh hN (Nat.le_succ p)))
  have hb : (do let q ← Server.stealCentroid env fac fuel a ns src limit; pure (some q) : Prog F64 _).run w (p + 1) = .ok ((some o, w'), p') := by
    refine (run_bind_ok e).trans ?_
    rw [run_pure]; rfl
  refine ⟨(o.transferredN, o.ok), w', p' + 1, ?_, by omega, e2.mono hlh hN (by omega), e3⟩
  unfold Client.stealCentroids
  refine (run_bind_ok (call_up (hra.1 p) hb)).trans ?_
  rw [hra.2 p']
  simp only [if_true, run_pure]
  rfl

/-- A call that takes datapoints out of one manager and hands them to the client: `g` tells which of the datapoints in the answer left
the manager. -/
theorem handOut_kept (hnd : nodes.Nodup) (hlh : Range lo hi) (hN : 16 * (N : ℝ) * (N + 2) * hi ≤ 2 ^ 53 * lo)
    {a : Addr} (ha : a ∈ nodes) (hr : Reachable env a) {f : Manager F64 → Go (List (DataPoint F64) × Manager F64)}
    (g : List (DataPoint F64) → List (DataPoint F64)) (hg0 : g [] = [])
    (h1 : ∀ m p, m.WF → Go.wp (f m) (fun r q => Manager.Eff env.tk p q m r.2 [] (g r.1)) p)
    (h2 : ∀ m p, Life.Keeps knnCos kfnCos (Positive.Sound knnCos kfnCos lo hi N) p m →
      Go.wlp (f m) (fun r q => p ≤ q ∧ Life.Keeps knnCos kfnCos (Positive.Sound knnCos kfnCos lo hi N) q r.2) p)
    {w : World F64} {p : Nat} (hs : State D lo hi N nodes ns p w) :
    ∃ out w' p', (do let r ← Client.call env a (Server.access a ns f); pure (r.getD []) : Prog F64 _).run w p = .ok ((out, w'), p') ∧ p ≤ p' ∧
      State D lo hi N nodes ns p' w' ∧ (storedAt w' nodes ns ++ g out).Perm (storedAt w nodes ns) := by
  have key : ∃ o w' p', (Server.access a ns f).run w (p + 1) = .ok ((o, w'), p') ∧ p ≤ p' ∧ State D lo hi N nodes ns p' w' ∧
      (storedAt w' nodes ns ++ g (o.getD [])).Perm (storedAt w nodes ns) := by
    cases hg : w.get a ns with
    | none =>
      refine ⟨none, w, p + 1, ?_, Nat.le_succ p, hs.mono hlh hN (Nat.le_succ p), by simp [hg0]⟩
      rw [run_access_none ((get_eq_none_iff hs.ok).1 hg)]; rfl
    | some m =>
      obtain ⟨i, hl, hix⟩ := lookup_of_get hs.ok hg
      have hok := hs.ok.mok hix
      have hs1 := hs.mono hlh hN (Nat.le_succ p)
      obtain ⟨r, q, e1, e2, e3, e4⟩ := Go.wp_iff.1 (Go.wp_wlp (h1 m (p + 1) hok.wf) (h2 m (p + 1) (hs1.good a m hg)))
      have hlm := hs.livesAt ha hg
      have hperm : (stored r.2 ++ g r.1).Perm (stored m) := Round.conserved_live e2.conserved (fun d hd => hlm d hd)
      have hpp := put_perm hnd ha hs.ok hl hix r.2
      refine ⟨some r.1, w.put i ns r.2, q, ?_, by omega, hs.put hlh hN hnd ha (by omega) hl hix (hok.of_eff e2 (by simp)) e4
        (fun d hd => hlm d (hperm.subset (List.mem_append_left _ hd))), ?_⟩
      · rw [run_access_some hl hix]
        show (f m (p + 1)).bind _ = _
        rw [e1]; rfl
      · rw [Option.getD_some]
        permc [hpp, hperm]
  obtain ⟨o, w', p', e1, e2, e3, e4⟩ := key
  refine ⟨o.getD [], w', p' + 1, ?_, by omega, e3.mono hlh hN (Nat.le_succ p'), e4⟩
  refine (run_bind_ok (call_up (hr.1 p) e1)).trans ?_
  rw [hr.2 p']
  simp only [if_true, run_pure]
  rfl

/-- Draining, by a client. -/
theorem drain_kept (he : EnvOK env) (hnd : nodes.Nodup) (hlh : Range lo hi) (hN : 16 * (N : ℝ) * (N + 2) * hi ≤ 2 ^ 53 * lo)
    (ordered : Bool) {a : Addr} (ha : a ∈ nodes) (hr : Reachable env a) {n : Int} (hn : 0 ≤ n) {w : World F64} {p : Nat} (hs : State D lo hi N nodes ns p w) :
    ∃ out w' p', (if ordered then Client.drainOrdered env a ns n else Client.drainUnordered env a ns n : Prog F64 (List (DataPoint F64))).run w p =
        .ok ((out, w'), p') ∧ p ≤ p' ∧ State D lo hi N nodes ns p' w' ∧ (storedAt w' nodes ns ++ out).Perm (storedAt w nodes ns) := by
  have L := Positive.life hlh hN knnCos kfnCos
  cases ordered with
  | true =>
    simp only [if_true]
    refine handOut_kept hnd hlh hN ha hr id rfl (fun m p h => ?_) (fun m p h => ?_) hs
    · rw [Go.wp_bind]
      refine wp_mapOrder he (fun ord ho => ?_)
      refine Go.wp_mono (Manager.wp_drainOrdered he.clock ho h hn _) fun _ _ hr => ?_
      exact ⟨by have := hr.1.le; omega, hr.1.wf, hr.1.same, hr.1.conserved, hr.1.len⟩
    · intro r q e
      have e' : m.drainOrdered env.tk (fun l => Env.reorder (env.perm p l.length) l) n (p + 1) = .ok (r, q) := e
      have h3 : Go.wlp (m.drainOrdered env.tk (fun l => Env.reorder (env.perm p l.length) l) n)
          (fun r q => p + 1 ≤ q ∧ Life.Keeps knnCos kfnCos (Positive.Sound knnCos kfnCos lo hi N) q r.2) (p + 1) := by
        unfold Manager.drainOrdered
        refine Go.wlp_bind (Go.wlp_checkMake fun _ => L.drainLoop _ (fun p c n hc => ?_) _ _ _ (p + 1) (h.mono L (Nat.le_succ p)))
        exact Go.wlp_mono (L.drainOrdered (prefabs_goodSearch (F := F64)).2.1 he.clock hc n) fun _ _ hx => ⟨hx.1, hx.2.1, trivial⟩
      have := h3 r q e'
      exact ⟨by omega, this.2⟩
  | false =>
    simp only [Bool.false_eq_true, if_false]
    refine handOut_kept hnd hlh hN ha hr id rfl (fun m p h => ?_) (fun m p h => ?_) hs
    · rw [Go.wp_bind]
      refine wp_mapOrder he (fun ord ho => ?_)
      refine Go.wp_mono (Manager.wp_drainUnordered he.clock ho h hn _) fun _ _ hr => ?_
      exact ⟨by have := hr.1.le; omega, hr.1.wf, hr.1.same, hr.1.conserved, hr.1.len⟩
    · intro r q e
      have e' : m.drainUnordered env.tk (fun l => Env.reorder (env.perm p l.length) l) n (p + 1) = .ok (r, q) := e
      have h3 : Go.wlp (m.drainUnordered env.tk (fun l => Env.reorder (env.perm p l.length) l) n)
          (fun r q => p + 1 ≤ q ∧ Life.Keeps knnCos kfnCos (Positive.Sound knnCos kfnCos lo hi N) q r.2) (p + 1) := by
        unfold Manager.drainUnordered
        refine Go.wlp_bind (Go.wlp_checkMake fun _ => L.drainLoop _ (fun p c n hc => ?_) _ _ _ (p + 1) (h.mono L (Nat.le_succ p)))
        exact Go.wlp_mono (L.drainUnordered hc n) fun _ _ hx => ⟨hx.1, hx.2.1, trivial⟩
      have := h3 r q e'
      exact ⟨by omega, this.2⟩

/-- A lookup at one node, by a client. -/
theorem lookup_kept (he : EnvOK env) (hnd : nodes.Nodup) (hlh : Range lo hi) (hN : 16 * (N : ℝ) * (N + 2) * hi ≤ 2 ^ 53 * lo)
    (drain : Bool) {a : Addr} (ha : a ∈ nodes) (hr : Reachable env a) (v : List F64) {k : Int} (hk : 0 ≤ k) {w : World F64} {p : Nat}
    (hs : State D lo hi N nodes ns p w) :
    ∃ out w' p', (Client.knnLookup env a ns v k drain : Prog F64 (List (DataPoint F64))).run w p = .ok ((out, w'), p') ∧ p ≤ p' ∧
      State D lo hi N nodes ns p' w' ∧ (storedAt w' nodes ns ++ (if drain then out else [])).Perm (storedAt w nodes ns) := by
  have L := Positive.life hlh hN knnCos kfnCos
  obtain ⟨out, w', p', e1, e2⟩ := handOut_kept hnd hlh hN ha hr (f := fun m => m.knnLookup env.tk v k drain) (fun l => if drain then l else []) (by simp)
    (fun m p h => Go.wp_mono (Manager.wp_knnLookup he.clock h v hk drain p) fun _ _ hr => by
      obtain ⟨_, _, _, _, h1⟩ := hr
      exact h1.eff)
    (fun m p h => L.managerKnn he.clock h v k drain) hs
  refine ⟨out, w', p', ?_, e2⟩
  unfold Client.knnLookup
  refine (run_bind_ok (a := ()) (w' := w) (p' := p) ?_).trans e1
  rw [run_loc]
  have : ¬ k < 0 := by omega
  simp [Go.checkMake, this]
  rfl

/-- A client takes the nearest centroid of a node. -/
theorem fetch_kept (he : EnvOK env) (hnd : nodes.Nodup) (hlh : Range lo hi) (hN : 16 * (N : ℝ) * (N + 2) * hi ≤ 2 ^ 53 * lo)
    {a : Addr} (ha : a ∈ nodes) (hr : Reachable env a) (v : List F64) {w : World F64} {p : Nat} (hs : State D lo hi N nodes ns p w) :
    ∃ r w' p', (Client.nearestCentroids env a ns v 1 true : Prog F64 _).run w p = .ok ((r, w'), p') ∧ p ≤ p' ∧
      State D lo hi N nodes ns p' w' ∧ (storedAt w' nodes ns ++ (r.2.getD []).flatMap (fun c => c.dps)).Perm (storedAt w nodes ns) := by
  obtain ⟨⟨r, w'⟩, p', e1, e2, _, e3⟩ := Go.wp_iff.1 (wp_nearest1_kept he hnd hlh hN ha hr hs v)
  refine ⟨r, w', p', e1, e2, ?_⟩
  cases e3 with
  | nothing h => exact ⟨h, by simp⟩
  | empty h hp => exact ⟨h, by simpa using hp⟩
  | centroid h _ _ _ hp =>
    refine ⟨h, ?_⟩
    simp only [Option.getD_some, List.flatMap_cons, List.flatMap_nil, List.append_nil]
    permc [hp]

end Keep
end Trypo
