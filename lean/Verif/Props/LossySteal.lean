import Verif.Spec.Lossy
import Verif.Props.Lossy
import Verif.Props.Rob

/-!
# C119: stealing centroids on any network
-/

set_option linter.unusedSectionVars false
set_option linter.unusedVariables false

namespace Trypo
open GoFloat Spec

section
variable {F : Type} [GoFloat F] [LawfulCmp F]

/-- What one call to the remote node may bring: nothing because it could not be reached, nothing
because its reply was lost (and a centroid with it, or not), nothing because the search found
nothing, nothing because the nearest centroid is empty, or a centroid. -/
inductive FetchedLossy (U V : Prop) (tk : Nat → Int) (v : List F) (n : Nat) (w : World F) (i : Nat) (ns : NS) (s : Manager F) (p' : Nat) :
    (Bool × Option (List (Centroid F))) × World F → Prop
  | down (h : U) : FetchedLossy U V tk v n w i ns s p' ((true, none), w)
  | mute (h : V) : FetchedLossy U V tk v n w i ns s p' ((true, none), w)
  | lost (h : V) (c : Centroid F) (s' : Manager F) (hs : MOK n s') (hp : (c :: s'.centroids).Perm s.centroids)
      (hsub : s'.centroids.Sublist s.centroids) : FetchedLossy U V tk v n w i ns s p' ((true, none), w.put i ns s')
  | nothing (h : knnCos v (s.centroids.map (fun c => c.vec)) 1 = .ok []) : FetchedLossy U V tk v n w i ns s p' ((false, none), w)
  | empty (c : Centroid F) (s' : Manager F) (hs : MOK n s') (hp : (c :: s'.centroids).Perm s.centroids)
      (hsub : s'.centroids.Sublist s.centroids) (hc : c.dps = []) :
      FetchedLossy U V tk v n w i ns s p' ((false, some []), w.put i ns s')
  | centroid (c x : Centroid F) (s' : Manager F) (hs : MOK n s') (hp : (c :: s'.centroids).Perm s.centroids)
      (hsub : s'.centroids.Sublist s.centroids) (hc : c.dps ≠ []) (hx : Usable (tk p') n c.dps x) :
      FetchedLossy U V tk v n w i ns s p' ((false, some [x]), w.put i ns s')

theorem wp_nearest1_lossy {env : Env} (hm : MonoClock env.tk) {D : NS → Nat} {w : World F} (hw : WorldOK D w)
    {src : Addr} {ns : NS} {i : Nat} {s : Manager F} (hl : w.lookup src ns = some i) (hi : w.heap[i]? = some (ns, s))
    (v : List F) (p : Nat) :
    Go.wp ((Client.nearestCentroids env src ns v 1 true).run w) (fun r p' => p ≤ p' ∧ FetchedLossy (Down env src) (Unheard env src) env.tk v (D ns) w i ns s p' r) p := by
  have hok := hw.mok hi
  have hput : w.put i ns s = w := by
    unfold World.put
    obtain ⟨hlt, hi'⟩ := List.getElem?_eq_some_iff.1 hi
    rw [← hi', List.set_getElem_self]
  unfold Client.nearestCentroids Client.call
  rw [run_bind, Go.wp_bind, run_bind, Go.wp_bind, run_loc, Go.wp_bind]
  refine wp_sent ?_
  rw [Go.wp_pure]
  simp only
  cases hup : env.up p src with
  | false =>
    simp only [Bool.false_eq_true, if_false, run_pure, Go.wp_pure, Option.getD_none, Option.isNone_none, Client.unpack,
      List.length_nil, if_true, run_bind, run_loc, Go.wp_bind]
    exact ⟨by omega, .down ⟨p, hup⟩⟩
  | true =>
    simp only [if_true]
    rw [run_bind, Go.wp_bind]
    unfold Server.nearestCentroids
    rw [run_access_some hl hi]
    simp only [Go.wp_bind]
    refine Go.wp_mono (Manager.wp_nearestCentroids hok.wf v (n := 1) (by omega) true (p + 1)) (fun q p1 hq => ?_)
    obtain ⟨hp1, is, h1, h2, h3, h4, h5⟩ := hq
    simp only [Go.wp_pure]
    rw [run_bind, Go.wp_bind, run_loc, Go.wp_bind]
    refine wp_arrived ?_
    rw [Go.wp_pure]
    have hmok1 : ∀ {removed}, Manager.DelSteps s removed q.2 → MOK (D ns) q.2 := fun d1 => ⟨d1.wf hok.wf, d1.same.knn.trans hok.knn,
      d1.same.kfn.trans hok.kfn, (d1.vec_length hok.wf).trans hok.len⟩
    cases hb : env.back p1 src with
    | false =>
      simp only [Bool.false_eq_true, if_false, run_pure, Go.wp_pure, Option.getD_none, Option.isNone_none, Client.unpack,
        List.length_nil, if_true, run_bind, run_loc, Go.wp_bind]
      refine ⟨by omega, ?_⟩
      by_cases his : is = []
      · rw [h4 his, hput]
        exact .mute ⟨p1, hb⟩
      · obtain ⟨cs, e1, e2, e3, e4⟩ := h5 his
        obtain ⟨rem, d1, d2⟩ := e4 rfl
        have hlen : cs.length = 1 := by
          have := congrArg List.length e2
          simp only [List.length_map] at this
          have : 0 < is.length := List.length_pos_iff.2 his
          omega
        obtain ⟨c, rfl⟩ := List.length_eq_one_iff.1 hlen
        obtain rfl := List.perm_singleton.1 d2
        exact .lost ⟨p1, hb⟩ c q.2 (hmok1 d1) d1.perm d1.sublist
    | true =>
      simp only [if_true, run_pure, Go.wp_pure, Option.getD_some, Option.isNone_some]
      rw [run_bind, Go.wp_bind, run_loc, Go.wp_bind]
      simp only [run_pure, Go.wp_pure]
      by_cases his : is = []
      · subst his
        rw [h4 rfl]
        simp only [Option.getD_none, List.map_nil, Client.unpack, List.length_nil, if_true, Go.wp_pure, hput]
        rw [hok.knn] at h1
        exact ⟨by omega, .nothing h1⟩
      · obtain ⟨cs, e1, e2, e3, e4⟩ := h5 his
        obtain ⟨rem, d1, d2⟩ := e4 rfl
        have hlen : cs.length = 1 := by
          have := congrArg List.length e2
          simp only [List.length_map] at this
          have : 0 < is.length := List.length_pos_iff.2 his
          omega
        obtain ⟨c, rfl⟩ := List.length_eq_one_iff.1 hlen
        obtain rfl := List.perm_singleton.1 d2
        have hmok : MOK (D ns) q.2 := ⟨d1.wf hok.wf, d1.same.knn.trans hok.knn, d1.same.kfn.trans hok.kfn,
          (d1.vec_length hok.wf).trans hok.len⟩
        have hcm : c ∈ s.centroids := d1.perm.subset (by simp)
        rw [e1]
        simp only [Option.getD_some, List.map_cons, List.map_nil, Client.unpack, List.length_singleton, Nat.one_ne_zero, if_false]
        cases hc : c.dps with
        | nil =>
          simp only [Client.dropEmpty, Client.reinitAll, Go.wp_bind, Go.wp_pure]
          exact ⟨by omega, .empty c q.2 hmok d1.perm d1.sublist hc⟩
        | cons d ds =>
          simp only [Client.dropEmpty, Client.reinitAll, Go.wp_bind, Go.wp_pure]
          have hdim : ∀ x ∈ d :: ds, x.vec.length = D ns := by
            intro x hx
            rw [(hok.wf.dim c hcm).2 x (by rw [hc]; exact hx), (hok.wf.dim c hcm).1, hok.len]
          refine Go.wp_mono (wp_reinit_usable hm (by simp) hdim _) (fun x p3 hx => ⟨by have := hx.1; omega, ?_⟩)
          exact .centroid c x q.2 hmok d1.perm d1.sublist (by rw [hc]; simp) (by rw [hc]; exact hx.2)

theorem wp_stealLoop_lossy {env : Env} (hm : MonoClock env.tk) {D : NS → Nat} {a src : Addr} (hne : a ≠ src)
    {ns : NS} (v : List F) (limit : Int) : ∀ (fuel n : Nat) (w : World F) (m s : Manager F) (p : Nat), WorldOK D w →
    w.get a ns = some m → w.get src ns = some s →
    Go.wp ((Server.stealLoop env a ns src v limit fuel n).run w) (fun r p' => p ≤ p' ∧ WorldOK D r.2 ∧
      (∀ b ns', (ns' ≠ ns ∨ b ≠ a ∧ b ≠ src) → r.2.get b ns' = w.get b ns') ∧ ∃ s' new lost,
      r.2.get a ns = some { m with centroids := m.centroids ++ new } ∧ r.2.get src ns = some s' ∧
      s'.centroids.Sublist s.centroids ∧ new.length + s'.centroids.length ≤ s.centroids.length ∧
      r.1.2 = n + (new.flatMap (fun c => c.dps)).length ∧
      Conserved (env.tk p') (stored s) (stored s') (new.flatMap (fun c => c.dps) ++ lost) ∧
      (lost = [] ∨ r.1.1 = true ∧ Unheard env src ∧ ∃ c ∈ s.centroids, lost = c.dps) ∧
      (∀ x ∈ new, ∃ c ∈ s.centroids, x.dps.length ≤ c.dps.length) ∧
      (n < r.1.2 → ∃ c ∈ s.centroids, (r.1.2 : Int) < limit + c.dps.length) ∧
      Stopped (Down env src ∨ Unheard env src) v limit fuel s s' new.length r.1) p
  | 0, n, w, m, s, p, hw, hga, hgs => by
    unfold Server.stealLoop
    rw [run_pure, Go.wp_pure]
    refine ⟨Nat.le_refl _, hw, fun _ _ _ => rfl, s, [], [], by simpa using hga, hgs, .refl _, by simp, by simp, Conserved.refl _ _, .inl rfl,
      by simp, fun h => absurd h (by simp), .fuel (by simp)⟩
  | fuel + 1, n, w, m, s, p, hw, hga, hgs => by
    unfold Server.stealLoop
    have stop : ∀ (r : (Bool × Nat) × World F) p', p ≤ p' → r.2 = w → r.1.2 = n → Stopped (Down env src ∨ Unheard env src) v limit (fuel + 1) s s 0 r.1 →
        p ≤ p' ∧ WorldOK D r.2 ∧
      (∀ b ns', (ns' ≠ ns ∨ b ≠ a ∧ b ≠ src) → r.2.get b ns' = w.get b ns') ∧ ∃ s' new lost,
      r.2.get a ns = some { m with centroids := m.centroids ++ new } ∧ r.2.get src ns = some s' ∧
      s'.centroids.Sublist s.centroids ∧ new.length + s'.centroids.length ≤ s.centroids.length ∧
      r.1.2 = n + (new.flatMap (fun c => c.dps)).length ∧
      Conserved (env.tk p') (stored s) (stored s') (new.flatMap (fun c => c.dps) ++ lost) ∧
      (lost = [] ∨ r.1.1 = true ∧ Unheard env src ∧ ∃ c ∈ s.centroids, lost = c.dps) ∧
      (∀ x ∈ new, ∃ c ∈ s.centroids, x.dps.length ≤ c.dps.length) ∧
      (n < r.1.2 → ∃ c ∈ s.centroids, (r.1.2 : Int) < limit + c.dps.length) ∧
      Stopped (Down env src ∨ Unheard env src) v limit (fuel + 1) s s' new.length r.1 := by
      intro r p' hp e1 e2 hst
      rw [e1]
      exact ⟨hp, hw, fun _ _ _ => rfl, s, [], [], by simpa using hga, hgs, .refl _, by simp, by simpa using e2, Conserved.refl _ _, .inl rfl,
        by simp, fun h => absurd h (by omega), hst⟩
    split
    · rename_i hlim
      obtain ⟨i, hl, hi⟩ := lookup_of_get hw hgs
      rw [run_bind, Go.wp_bind]
      refine Go.wp_mono (wp_nearest1_lossy hm hw hl hi v p) (fun q p1 hq => ?_)
      obtain ⟨hp1, hq⟩ := hq
      cases hq with
      | down h =>
        rw [run_pure, Go.wp_pure]
        exact stop _ _ hp1 rfl rfl (.down (.inl h))
      | mute h =>
        rw [run_pure, Go.wp_pure]
        exact stop _ _ hp1 rfl rfl (.down (.inr h))
      | lost h c s' hs hp hsub =>
        rw [run_pure, Go.wp_pure]
        refine ⟨hp1, hw.put hi hs.ok, fun b ns' hb => get_put_other hw hl hi ?_, s', [], c.dps, ?_, get_put_self hl hi, hsub, ?_, by simp, ?_,
          .inr ⟨rfl, h, c, hp.subset (by simp), rfl⟩, by simp, fun h => absurd h (by simp), .down (.inr h)⟩
        · rcases hb with hb | hb
          · exact .inr hb
          · exact .inl hb.2
        · rw [get_put_other hw hl hi (.inl hne)]; simpa using hga
        · have := hp.length_eq; simp only [List.length_cons] at this; simp; omega
        · have := Manager.flat_perm hp
          refine ⟨[], ?_, by simp⟩
          simp only [Centroid.flat, List.flatMap_cons] at this
          simp only [stored, List.flatMap_nil, List.append_nil, List.nil_append]
          exact List.perm_append_comm.trans this
      | nothing h =>
        rw [run_pure, Go.wp_pure]
        exact stop _ _ hp1 rfl rfl (.nothing h)
      | empty c s' hs hp hsub hc =>
        rw [run_pure, Go.wp_pure]
        refine ⟨hp1, hw.put hi hs.ok, fun b ns' hb => get_put_other hw hl hi ?_, s', [], [], ?_, get_put_self hl hi, hsub, ?_, by simp, ?_, .inl rfl,
          by simp, fun h => absurd h (by simp), .empty (hp.subset (by simp)) hc⟩
        · rcases hb with hb | hb
          · exact .inr hb
          · exact .inl hb.2
        · rw [get_put_other hw hl hi (.inl hne)]; simpa using hga
        · have := hp.length_eq; simp only [List.length_cons] at this; simp; omega
        · have := Manager.flat_perm hp
          refine ⟨[], ?_, by simp⟩
          simp only [stored, List.flatMap_nil, List.append_nil]
          simpa [Centroid.flat, hc] using this
      | centroid c x s' hs hp hsub hc hx =>
        simp only
        have hw1 : WorldOK D (w.put i ns s') := hw.put hi hs.ok
        have hga1 : (w.put i ns s').get a ns = some m := by rw [get_put_other hw hl hi (.inl hne)]; exact hga
        obtain ⟨ia, hla, hia⟩ := lookup_of_get hw1 hga1
        have hma := hw1.mok hia
        have hm2 : MOK (D ns) { m with centroids := m.centroids ++ [x] } := by
          refine ⟨hma.wf.append ?_ ?_, hma.knn, hma.kfn, hma.len⟩
          · intro y hy; rw [List.mem_singleton.1 hy, hma.knn, hma.kfn]; exact hx.search
          · intro y hy; rw [List.mem_singleton.1 hy, hma.len]
            exact ⟨hx.dim.1, fun d hd => (hx.dim.2 d hd).trans hx.dim.1.symm⟩
        rw [run_bind, run_access_some hla hia, Go.wp_bind]
        simp only [pure_bind, Go.wp_pure, Option.getD_some]
        have hw2 := hw1.put hia hm2.ok
        have hgs2 : ((w.put i ns s').put ia ns { m with centroids := m.centroids ++ [x] }).get src ns = some s' := by
          rw [get_put_other hw1 hla hia (.inl (Ne.symm hne)), get_put_self hl hi]
        refine Go.wp_mono (wp_stealLoop_lossy hm hne v limit fuel (n + x.lenDP) _ _ s' p1 hw2 (get_put_self hla hia) hgs2)
          (fun r p2 hrr => ?_)
        obtain ⟨r1, r2, r3, s2, new, lost, r4, r5, r6, r7, r8, r9, r13, r12, r10, r11⟩ := hrr
        have hxc : x.dps.length ≤ c.dps.length := by
          obtain ⟨l1, e2, e3⟩ := hx.data
          have := e2.length_eq
          simp only [List.length_append] at this
          omega
        refine ⟨Nat.le_trans hp1 r1, r2, fun b ns' hb => ?_, s2, x :: new, lost, ?_, r5, r6.trans hsub, ?_, ?_, ?_, ?_, fun y hy => ?_, fun hlt => ?_, ?_⟩
        · rw [r3 b ns' hb, get_put_other hw1 hla hia, get_put_other hw hl hi]
          · rcases hb with hb | hb
            · exact .inr hb
            · exact .inl hb.2
          · rcases hb with hb | hb
            · exact .inr hb
            · exact .inl hb.1
        · rw [r4]; simp
        · have := hp.length_eq; simp only [List.length_cons] at this ⊢; omega
        · rw [r8]; simp [Centroid.lenDP]; omega
        · have e1 : (c.dps ++ stored s').Perm (stored s) := by
            have := Manager.flat_perm hp
            simpa [Centroid.flat, stored] using this
          obtain ⟨l1, e2, e3⟩ := hx.data.mono hm r1
          obtain ⟨l2, e4, e5⟩ := r9
          simp only [List.flatMap_cons]
          exact ⟨l1 ++ l2, by permc [e1, e2, e4], fun d hd => (List.mem_append.1 hd).elim (e3 d) (e5 d)⟩
        · exact r13.imp_right (fun ⟨e1, e2, c, hc, e3⟩ => ⟨e1, e2, c, hsub.subset hc, e3⟩)
        · rcases List.mem_cons.1 hy with rfl | hy
          · exact ⟨c, hp.subset (by simp), hxc⟩
          · obtain ⟨z, hz, hz'⟩ := r12 y hy
            exact ⟨z, hsub.subset hz, hz'⟩
        · by_cases hlt2 : n + x.lenDP < r.1.2
          · obtain ⟨y, hy, hy2⟩ := r10 hlt2
            exact ⟨y, hsub.subset hy, hy2⟩
          · refine ⟨c, hp.subset (by simp), ?_⟩
            have : x.lenDP ≤ c.dps.length := hxc
            omega
        · generalize r.1 = b at r11
          cases r11 with
          | limit h => exact .limit h
          | down h => exact .down h
          | nothing h => exact .nothing h
          | empty h hc => exact .empty (hsub.subset h) hc
          | fuel h => exact .fuel (by simp; omega)
    · rename_i hlim
      rw [run_pure, Go.wp_pure]
      exact stop _ _ (Nat.le_refl _) rfl rfl (.limit (by omega))

/-- What `StealCentroid` at node `a` from node `src` achieved: `N` and `ok` are its answer, `s` is what the remote node held
before, `moved` the datapoints that changed sides, `lost` those that are gone. -/
structure StealAny (env : Env) (t : Int) (D : NS → Nat) (a src : Addr) (ns : NS) (limit : Int) (w w' : World F) (s : Manager F)
    (resp : Server.StealResp) (moved lost : List (DataPoint F)) (s' : Manager F) : Prop where
  ok : WorldOK D w'
  others : ∀ b ns', (ns' ≠ ns ∨ b ≠ a ∧ b ≠ src) → w'.get b ns' = w.get b ns'
  remote : w'.get src ns = some s'
  /-- whole centroids were taken -/
  whole : s'.centroids.Sublist s.centroids
  count : resp.transferredN = moved.length
  given : Conserved t (stored s) (stored s') (moved ++ lost)
  /-- nothing is lost, or a reply was, and with it one centroid of the remote node; then the answer is a failure -/
  loss : lost = [] ∨ resp.ok = false ∧ Unheard env src ∧ ∃ c ∈ s.centroids, lost = c.dps
  gained : Conserved t (storedAt w [a] ns ++ moved) (storedAt w' [a] ns) []
  /-- no centroid grows -/
  sizes : ∀ c' ∈ centroidsAt w' a ns, ∃ c ∈ centroidsAt w a ns ++ s.centroids, c'.dps.length ≤ c.dps.length
  number : (centroidsAt w' a ns).length + s'.centroids.length ≤ (centroidsAt w a ns).length + s.centroids.length
  kept : (∃ m, w.get a ns = some m) → ∃ m, w'.get a ns = some m
  /-- the limit is exceeded by less than one centroid -/
  limit_ok : 0 < resp.transferredN → ∃ c ∈ s.centroids, (resp.transferredN : Int) < limit + c.dps.length
  /-- it stops when the limit is reached, when the remote node finds no centroid, or when it gives an empty one -/
  stop : resp.ok = true → limit ≤ resp.transferredN ∨
    (∃ v : List F, v.length = D ns ∧ knnCos v (s'.centroids.map (fun c => c.vec)) 1 = .ok []) ∨ ∃ c ∈ s.centroids, c.dps = []
  /-- it only fails when the remote node could not be reached or heard, or vectors have no components -/
  heard : resp.ok = false → Down env src ∨ Unheard env src ∨ D ns = 0

theorem wp_stealWith_lossy {env : Env} (hm : MonoClock env.tk) {D : NS → Nat} {a src : Addr} (hne : a ≠ src)
    {ns : NS} {v : List F} (hv : v.length = D ns) (limit : Int) {fuel : Nat} {w : World F} {m s : Manager F} (hw : WorldOK D w)
    (hga : w.get a ns = some m) (hgs : w.get src ns = some s) (hfuel : s.centroids.length < fuel) (p : Nat) :
    Go.wp ((Server.stealWith env fuel a ns src limit v).run w) (fun r p' => p ≤ p' ∧ ∃ moved lost s',
      StealAny env (env.tk p') D a src ns limit w r.2 s r.1 moved lost s') p := by
  unfold Server.stealWith
  rw [run_bind, Go.wp_bind]
  refine Go.wp_mono (wp_stealLoop_lossy hm hne v limit fuel 0 w m s p hw hga hgs) (fun q p1 hq => ?_)
  obtain ⟨q1, q2, q3, s', new, lost, q4, q5, q6, q7, q8, q9, q13, q12, q10, q11⟩ := hq
  obtain ⟨i, hl, hi⟩ := lookup_of_get q2 q4
  have hok := q2.mok hi
  rw [run_bind, Go.wp_bind, run_access_some hl hi, Go.wp_bind]
  refine Go.wp_mono (Manager.wp_moveVector hm hok.wf p1) (fun r p2 hrr => ?_)
  obtain ⟨heff, _, hfor, _⟩ := hrr
  simp only [Go.wp_pure, run_pure]
  have hmok := hok.of_eff heff (by simp)
  have hle := heff.le
  refine ⟨Nat.le_trans q1 hle, new.flatMap (fun c => c.dps), lost, s', q2.put hi hmok.ok, fun b ns' hb => ?_, ?_, q6, by simpa using q8,
    q9.mono hm hle, ?_, ?_, fun c' hc' => ?_, ?_, fun _ => ⟨_, get_put_self hl hi⟩, by simpa using q10, fun hok' => ?_, fun hok' => ?_⟩
  · rw [get_put_other q2 hl hi, q3 b ns' hb]
    rcases hb with hb | hb
    · exact .inr hb
    · exact .inl hb.1
  · rw [get_put_other q2 hl hi (.inl (Ne.symm hne))]; exact q5
  · exact q13.imp_right (fun ⟨e1, e2⟩ => ⟨by simp [e1], e2⟩)
  · rw [storedAt_one hga, storedAt_one (get_put_self hl hi)]
    have := heff.conserved
    have e : Centroid.flat (m.centroids ++ new) = stored m ++ new.flatMap (fun c => c.dps) := by simp [Centroid.flat, stored]
    simp only [List.nil_append, e] at this
    exact this
  · rw [centroidsAt_some (get_put_self hl hi)] at hc'
    obtain ⟨c, hc, hcc⟩ := forall₂_mem_right hfor hc'
    rw [centroidsAt_some hga]
    rcases List.mem_append.1 hc with h | h
    · exact ⟨c, List.mem_append_left _ h, hcc.length_le⟩
    · obtain ⟨z, hz, hz'⟩ := q12 c h
      exact ⟨z, List.mem_append_right _ hz, Nat.le_trans hcc.length_le hz'⟩
  · rw [centroidsAt_some (get_put_self hl hi), centroidsAt_some hga, ← hfor.length_eq]
    simp only [List.length_append]
    omega
  · have hb : q.1.1 = false := by simpa using hok'
    generalize hqq : q.1 = b at *
    cases q11 with
    | limit h => exact .inl h
    | down => simp at hb
    | nothing h => exact .inr (.inl ⟨v, hv, h⟩)
    | empty h hc => exact .inr (.inr ⟨_, h, hc⟩)
    | fuel h => omega
  · have hb : q.1.1 = true := by simpa using hok'
    generalize hqq : q.1 = b at *
    cases q11 with
    | down h => exact h.imp_right .inl
    | limit h => simp at hb
    | nothing h => simp at hb
    | empty h hc => simp at hb
    | fuel h => omega

/-- **C119.** `StealCentroid` from another node, on any network: as in C37, but when it fails because a reply was lost, one centroid of the
other node may be gone; never more than one, and never when it answers `OK`. -/
theorem C119_steal {env : Env} (hm : MonoClock env.tk) {fac : Factory F} (hf : FactoryOK fac) {D : NS → Nat}
    {a src : Addr} (hne : a ≠ src) {ns : NS} (limit : Int) {fuel : Nat} {w : World F} {s : Manager F} (hw : WorldOK D w)
    (hgs : w.get src ns = some s) (hfuel : s.centroids.length < fuel) (p : Nat) :
    ∃ resp w' p' moved lost s', (Server.stealCentroid env fac fuel a ns src limit).run w p = .ok ((resp, w'), p') ∧
      StealAny env (env.tk p') D a src ns limit w w' s resp moved lost s' := by
  have key : Go.wp ((Server.stealCentroid env fac fuel a ns src limit).run w) (fun r p' => ∃ moved lost s',
      StealAny env (env.tk p') D a src ns limit w r.2 s r.1 moved lost s') p := by
    unfold Server.stealCentroid
    cases hga : w.get a ns with
    | some m =>
      obtain ⟨i, hl, hi⟩ := lookup_of_get hw hga
      have hok := hw.mok hi
      have hput : w.put i ns m = w := by
        unfold World.put
        obtain ⟨hlt, hi'⟩ := List.getElem?_eq_some_iff.1 hi
        rw [← hi', List.set_getElem_self]
      rw [run_bind, run_access_some hl hi]
      simp only [pure_bind, hput]
      exact Go.wp_mono (wp_stealWith_lossy hm hne hok.len limit hw hga hgs hfuel p) (fun r p' h => h.2)
    | none =>
      have hl := (get_eq_none_iff hw).1 hga
      rw [run_bind, run_access_none hl]
      simp only [pure_bind]
      rw [run_bind, Go.wp_bind]
      refine Go.wp_mono (wp_vec_heard (env := env) hw src ns p) (fun q p1 hq => ?_)
      obtain ⟨q1, q2, q3⟩ := hq
      rw [hgs, Option.map_some] at q3
      replace q3 : (q.1 = none ∧ (Down env src ∨ Unheard env src)) ∨ q.1 = some s.vec := q3.symm.imp (fun ⟨h1, x, h2⟩ => ⟨h1, h2.imp (fun h => ⟨x, h⟩) (fun h => ⟨x, h⟩)⟩) id
      obtain ⟨is, hls, his⟩ := lookup_of_get hw hgs
      have hsok := hw.mok his
      have fail : (q.1.getD [] = []) → ∃ moved lost s', StealAny env (env.tk p1) D a src ns limit w q.2 s ⟨0, false⟩ moved lost s' := by
        intro hnil
        refine ⟨[], [], s, ?_⟩
        rw [q2]
        exact ⟨hw, fun _ _ _ => rfl, hgs, .refl _, rfl, Conserved.refl _ _, .inl rfl, by simpa using Conserved.refl _ _,
          fun c hc => ⟨c, List.mem_append_left _ hc, Nat.le_refl _⟩, Nat.le_refl _, id, fun h => absurd h (by simp), fun h => absurd h (by simp), fun _ => by
            rcases q3 with h | h
            · exact h.2.imp_right .inl
            · rw [h, Option.getD_some] at hnil
              exact .inr (.inr (by rw [← hsok.len, hnil]; rfl))⟩
      cases hv : q.1.getD [] with
      | nil => rw [run_pure, Go.wp_pure]; exact fail hv
      | cons y ys =>
        have hyl : (y :: ys).length = D ns := by
          rcases q3 with h | h
          · rw [h.1] at hv; simp at hv
          · rw [h] at hv; simp only [Option.getD_some] at hv; rw [← hv]; exact hsok.len
        simp only
        rw [run_bind, run_loc, Go.wp_bind, Go.wp_bind]
        refine safe_make hf hyl p1 (fun m hmok hc => ?_)
        rw [Go.wp_pure, q2]
        simp only
        rw [run_bind, run_addSlot, Go.wp_bind, Go.wp_pure]
        have hw1 : WorldOK D (w.addSlot a ns m) := hw.addSlot a hmok.ok
        have hoth : ∀ b ns', (ns' ≠ ns ∨ b ≠ a) → (w.addSlot a ns m).get b ns' = w.get b ns' := by
          intro b ns' hb
          rcases Classical.em (ns' = ns) with rfl | h
          · exact get_addSlot_of_lookup hw (lookup_addSlot_node w (hb.resolve_left (by simp)) ns' ns' m)
          · exact get_addSlot_ns hw a b h m
        refine Go.wp_mono (wp_stealWith_lossy hm hne hyl limit hw1 (get_addSlot w a ns m) (by rw [hoth _ _ (.inr (Ne.symm hne))]; exact hgs)
          hfuel p1) (fun r p' h => ?_)
        obtain ⟨_, moved, lost, s', h⟩ := h
        refine ⟨moved, lost, s', h.ok, fun b ns' hb => ?_, h.remote, h.whole, h.count, h.given, h.loss, ?_, ?_, ?_, fun ⟨x, hx⟩ => (by rw [hga] at hx; cases hx), h.limit_ok, h.stop, h.heard⟩
        · rw [h.others b ns' hb, hoth b ns' (hb.imp id (fun h => h.1))]
        · have := h.gained
          rw [storedAt_one (get_addSlot w a ns m), show stored m = [] by simp [stored, hc]] at this
          rw [storedAt_none hga]; exact this
        · have := h.sizes
          rw [centroidsAt_some (get_addSlot w a ns m), hc] at this
          rw [centroidsAt_none hga]; exact this
        · have := h.number
          rw [centroidsAt_some (get_addSlot w a ns m), hc] at this
          rw [centroidsAt_none hga]; exact this
  obtain ⟨r, p', h0, moved, lost, s', h1⟩ := Go.wp_iff.1 key
  exact ⟨r.1, r.2, p', moved, lost, s', h0, h1⟩


/-- **C119.** When `StealCentroid` answers `OK`, nothing was lost, on any network. -/
theorem C119_ok {env : Env} (hm : MonoClock env.tk) {fac : Factory F} (hf : FactoryOK fac) {D : NS → Nat}
    {a src : Addr} (hne : a ≠ src) {ns : NS} (limit : Int) {fuel : Nat} {w : World F} {s : Manager F} (hw : WorldOK D w)
    (hgs : w.get src ns = some s) (hfuel : s.centroids.length < fuel) (p : Nat) :
    ∃ resp w' p', (Server.stealCentroid env fac fuel a ns src limit).run w p = .ok ((resp, w'), p') ∧
      (resp.ok = true → Conserved (env.tk p') (storedAt w [a, src] ns) (storedAt w' [a, src] ns) []) := by
  obtain ⟨resp, w', p', moved, lost, s', h0, h⟩ := C119_steal hm hf hne limit hw hgs hfuel p
  refine ⟨resp, w', p', h0, fun hok => ?_⟩
  have hl : lost = [] := h.loss.resolve_right (fun ⟨e, _⟩ => by rw [hok] at e; cases e)
  subst hl
  obtain ⟨l1, e1, e2⟩ := h.given
  obtain ⟨l2, e3, e4⟩ := h.gained
  rw [storedAt_cons w, storedAt_cons w', storedAt_one hgs, storedAt_one h.remote]
  exact ⟨l1 ++ l2, by permc [e1, e3], fun d hd => (List.mem_append.1 hd).elim (e2 d) (e4 d)⟩

end

open RobExample ServerExample

/-- C119: the reply with the second centroid is lost. It is gone; the answer is one datapoint and a failure. -/
example : ∃ r p', (Server.stealCentroid { env with back := fun p _ => p != 4 } fac 9 1 7 2 10).run rich 0 = .ok (r, p') ∧
    obsR r = (⟨1, false⟩, [[dp 1 0], [dp 3 1]], [[dp 0 1], []]) :=
  exists_of_run (by decide +kernel)

/-- C119: the theorem for this world and any network that loses replies. -/
example (back : Nat → Addr → Bool) (limit : Int) : ∃ resp w' p' moved lost s',
    (Server.stealCentroid { env with back := back } fac 9 1 7 2 limit).run rich 0 = .ok ((resp, w'), p') ∧
    StealAny { env with back := back } 0 (fun _ => 2) 1 2 7 limit rich w'
      (man [.ofInt 1, .ofInt 1] [cen [.ofInt 0, .ofInt 1] [dp 0 1], cen [.ofInt 2, .ofInt 1] [dp 2 1, dp 2 1], cen [.ofInt 3, .ofInt 1] [dp 3 1],
        cen [.ofInt 1, .ofInt 1] []]) resp moved lost s' :=
  C119_steal (env := { env with back := back }) env_ok.clock fac_ok (by decide) limit rich_ok rfl (by simp [man]) 0

end Trypo
