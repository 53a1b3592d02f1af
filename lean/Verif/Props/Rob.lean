import Verif.Props.Steal
import Verif.Props.Place
import Verif.Props.Landing
import Verif.Spec.Rob

/-!
# C115: which centroids are stolen
-/

set_option linter.unusedSectionVars false
set_option linter.unusedVariables false

namespace Trypo
open GoFloat Spec

section
variable {F : Type} [GoFloat F] [LawfulCmp F]

theorem Manager.wp_nearest_one {cm : Manager F} (hw : cm.WF) (hs : cm.knn = knnCos) (v : List F) (p : Nat) :
    Go.wp (cm.nearestCentroids v 1 true) (fun r p' => p' = p ∧
      ((r = (none, cm) ∧ Nearest v (cm.centroids.map (fun c => c.vec)) none) ∨
        ∃ j c, Nearest v (cm.centroids.map (fun c => c.vec)) (some j) ∧ cm.centroids[j]? = some c ∧ r.1 = some [c] ∧
          r.2.centroids = cm.centroids.eraseIdx j ∧ DelSteps cm [c] r.2)) p := by
  refine Go.wp_mono (Go.wp_and (wp_nearestCentroids hw v (n := 1) (by omega) true p) (R := fun r _ =>
    ∀ j, cm.knn v cm.centroidVecs 1 = .ok [j] → r.2.centroids = cm.centroids.eraseIdx j) ?_) (fun r p' h => ?_)
  · unfold nearestCentroids
    obtain ⟨is, h1, h2, h3, h4⟩ := hw.good.1 v cm.centroidVecs 1 (by omega)
    have hr : ∀ i ∈ is, i < cm.centroids.length := by
      intro i hi; have := h3 i hi; rwa [centroidVecs, List.length_map] at this
    simp only [Go.wp_bind, Go.wp_lift]
    refine ⟨is, h1, ?_⟩
    rw [Go.wp_ite]
    refine ⟨fun h0 => ?_, fun h0 => ?_⟩
    · rw [Go.wp_pure]
      intro j hj
      rw [h1] at hj; cases hj; simp at h0
    · simp only [Go.wp_checkMake, Go.wp_bind]
      refine ⟨by omega, Go.wp_mono (wp_getAll cm is p hr) (fun cs p1 hcs => ?_)⟩
      simp only [if_true, Go.wp_bind]
      obtain ⟨j, rfl⟩ : ∃ j, is = [j] := by
        cases is with
        | nil => simp at h0
        | cons j js =>
          cases js with
          | nil => exact ⟨j, rfl⟩
          | cons _ _ => simp only [List.length_cons] at h4; omega
      have hj := hr j (by simp)
      have hsort : (Centroid.sortInts [j]).reverse = [j] := by
        have := (Centroid.sortInts_perm [j])
        rw [List.perm_singleton.1 this]; rfl
      rw [hsort]
      unfold deleteAll deleteAt
      simp only [Go.wp_bind, Go.wp_idx]
      refine ⟨cm.centroids[j], List.getElem?_eq_getElem hj, ?_⟩
      unfold deleteAll
      simp only [Go.wp_pure]
      intro j' hj'
      rw [h1] at hj'; cases hj'
      rfl
  · obtain ⟨⟨e0, is, h1, h2, h3, h4, h5⟩, h6⟩ := h
    have hn : Nearest v (cm.centroids.map (fun c => c.vec)) is.head? := nearest_of_brute (by rw [hs] at h1; exact h1)
    refine ⟨e0, ?_⟩
    cases is with
    | nil => exact .inl ⟨h4 rfl, hn⟩
    | cons j js =>
      have hjs : js = [] := by
        cases js with
        | nil => rfl
        | cons _ _ => simp only [List.length_cons] at h3; omega
      subst hjs
      obtain ⟨cs, e1, e2, _, e4⟩ := h5 (by simp)
      obtain ⟨removed, d1, d2⟩ := e4 rfl
      cases cs with
      | nil => simp at e2
      | cons c cs =>
        simp only [List.map_cons, List.map_nil, List.cons.injEq] at e2
        have : cs = [] := by simpa using e2.2.symm
        subst this
        refine .inr ⟨j, c, hn, e2.1, e1, h6 j h1, ?_⟩
        rw [← List.perm_singleton.1 d2]; exact d1

theorem purged_same {tk : Nat → Int} {p p' : Nat} {c c' : Centroid F} (h : Centroid.Purged tk 0 p p' c c')
    (hl : ∀ d ∈ c.dps, ∀ q, ¬ Dead (tk q) d) : c'.dps = c.dps := by
  have h1 := h.lower
  have h2 := h.upper
  simp only [List.drop_zero] at h1 h2
  have e : ∀ q, c.dps.filter (fun d => !d.expiredAt (tk q)) = c.dps := fun q => List.filter_eq_self.2 (fun d hd => by
    have := hl d hd q
    rw [← expiredAt_iff] at this
    simpa using this)
  rw [e] at h1 h2
  exact (h1.antisymm h2).symm

theorem wp_reinit_same {env : Env} (hm : MonoClock env.tk) {n : Nat} {l : List (DataPoint F)} (hne : l ≠ [])
    (hl : ∀ d ∈ l, d.vec.length = n) (hlive : ∀ d ∈ l, ∀ q, ¬ Dead (env.tk q) d) (p : Nat) :
    Go.wp (Client.reinit env.tk l) (fun x p' => p ≤ p' ∧ Usable (env.tk p') n l x ∧ x.dps = l) p := by
  refine Go.wp_mono (Go.wp_and (wp_reinit_usable hm hne hl p) (R := fun x _ => x.dps = l) ?_) (fun x p' h => ⟨h.1.1, h.1.2, h.2⟩)
  cases l with
  | nil => exact absurd rfl hne
  | cons d l =>
    unfold Client.reinit Client.centroidFactory Centroid.new
    simp only [Go.wp_bind, Go.wp_idx]
    refine ⟨d, rfl, ?_⟩
    simp only [Go.wp_checkMake, Go.wp_pure]
    refine ⟨by omega, ?_⟩
    have hd : Centroid.DimOK (⟨d.vec, d :: l, knnCos, kfnCos⟩ : Centroid F) := by
      intro x hx
      show x.vec.length = d.vec.length
      rw [hl x hx, hl d (by simp)]
    refine Go.wp_mono (Centroid.wp_moveVector hm _ hd p) (fun r p' hr => ?_)
    obtain ⟨c1, h1, h2⟩ := hr
    have := purged_same h1 hlive
    rw [h2]
    split
    · exact this
    · exact this

/-- What one call to a remote node brings. -/
inductive Brought (tk : Nat → Int) (v : List F) (n : Nat) (w : World F) (i : Nat) (ns : NS) (s : Manager F) (p' : Nat) :
    (Bool × Option (List (Centroid F))) × World F → Prop
  | nothing (h : Nearest v (s.centroids.map (fun c => c.vec)) none) : Brought tk v n w i ns s p' ((false, none), w)
  | empty (j : Nat) (c : Centroid F) (s' : Manager F) (hs : MOK n s') (hj : Nearest v (s.centroids.map (fun c => c.vec)) (some j))
      (hc : s.centroids[j]? = some c) (hd : c.dps = []) (he : s'.centroids = s.centroids.eraseIdx j) :
      Brought tk v n w i ns s p' ((false, some []), w.put i ns s')
  | centroid (j : Nat) (c x : Centroid F) (s' : Manager F) (hs : MOK n s') (hj : Nearest v (s.centroids.map (fun c => c.vec)) (some j))
      (hc : s.centroids[j]? = some c) (hd : c.dps ≠ []) (he : s'.centroids = s.centroids.eraseIdx j)
      (hx : Usable (tk p') n c.dps x) (hx' : x.dps = c.dps) : Brought tk v n w i ns s p' ((false, some [x]), w.put i ns s')

theorem wp_nearest1_exact {env : Env} (hm : MonoClock env.tk) {D : NS → Nat} {w : World F} (hw : WorldOK D w)
    {src : Addr} (hr : Reachable env src) {ns : NS} {i : Nat} {s : Manager F} (hl : w.lookup src ns = some i)
    (hi : w.heap[i]? = some (ns, s)) (hlive : ∀ d ∈ stored s, ∀ q, ¬ Dead (env.tk q) d) (v : List F) (p : Nat) :
    Go.wp ((Client.nearestCentroids env src ns v 1 true).run w) (fun r p' => Brought env.tk v (D ns) w i ns s p' r) p := by
  have hok := hw.mok hi
  have hput : w.put i ns s = w := by
    unfold World.put
    obtain ⟨hlt, hi'⟩ := List.getElem?_eq_some_iff.1 hi
    rw [← hi', List.set_getElem_self]
  unfold Client.nearestCentroids Client.call
  rw [run_bind, Go.wp_bind, run_bind, Go.wp_bind, run_loc, Go.wp_bind]
  refine wp_sent ?_
  rw [Go.wp_pure]
  simp only [hr.1 p, if_true]
  rw [run_bind, Go.wp_bind]
  unfold Server.nearestCentroids
  rw [run_access_some hl hi]
  simp only [Go.wp_bind]
  refine Go.wp_mono (Manager.wp_nearest_one hok.wf hok.knn v (p + 1)) (fun q p1 hq => ?_)
  simp only [Go.wp_pure]
  rw [run_bind, Go.wp_bind, run_loc, Go.wp_bind]
  refine wp_arrived ?_
  rw [Go.wp_pure]
  simp only [hr.2 _, if_true, run_pure, Go.wp_pure, Option.getD_some, Option.isNone_some]
  rw [run_bind, Go.wp_bind, run_loc, Go.wp_bind]
  simp only [run_pure, Go.wp_pure]
  rcases hq.2 with ⟨e1, e2⟩ | ⟨j, c, e1, e2, e3, e4, d1⟩
  · rw [e1]
    simp only [Option.getD_none, List.map_nil, Client.unpack, List.length_nil, if_true, Go.wp_pure, hput]
    exact .nothing e2
  · have hmok : MOK (D ns) q.2 := ⟨d1.wf hok.wf, d1.same.knn.trans hok.knn, d1.same.kfn.trans hok.kfn,
      (d1.vec_length hok.wf).trans hok.len⟩
    have hcm : c ∈ s.centroids := List.mem_of_getElem? e2
    rw [e3]
    simp only [Option.getD_some, List.map_cons, List.map_nil, Client.unpack, List.length_singleton, Nat.one_ne_zero, if_false]
    cases hc : c.dps with
    | nil =>
      simp only [Client.dropEmpty, Client.reinitAll, Go.wp_bind, Go.wp_pure]
      exact .empty j c q.2 hmok e1 e2 hc e4
    | cons d ds =>
      simp only [Client.dropEmpty, Client.reinitAll, Go.wp_bind, Go.wp_pure]
      have hdim : ∀ x ∈ d :: ds, x.vec.length = D ns := by
        intro x hx
        rw [(hok.wf.dim c hcm).2 x (by rw [hc]; exact hx), (hok.wf.dim c hcm).1, hok.len]
      refine Go.wp_mono (wp_reinit_same hm (by simp) hdim (fun x hx => hlive x (List.mem_flatMap.2 ⟨c, hcm, by rw [hc]; exact hx⟩)) _)
        (fun x p3 hx => ?_)
      exact .centroid j c x q.2 hmok e1 e2 (by rw [hc]; simp) e4 (by rw [hc]; exact hx.2.1) (by rw [hc]; exact hx.2.2)

theorem wp_stealLoop_exact {env : Env} (hm : MonoClock env.tk) {D : NS → Nat} {a src : Addr} (hne : a ≠ src) (hr : Reachable env src)
    {ns : NS} (v : List F) (limit : Int) : ∀ (fuel n : Nat) (w : World F) (m s : Manager F) (p : Nat), WorldOK D w →
    w.get a ns = some m → w.get src ns = some s → s.centroids.length < fuel → (∀ d ∈ stored s, ∀ q, ¬ Dead (env.tk q) d) →
    Go.wp ((Server.stealLoop env a ns src v limit fuel n).run w) (fun r p' => WorldOK D r.2 ∧
      (∀ b ns', (ns' ≠ ns ∨ b ≠ a ∧ b ≠ src) → r.2.get b ns' = w.get b ns') ∧ ∃ s' new,
      r.2.get a ns = some { m with centroids := m.centroids ++ new } ∧ r.2.get src ns = some s' ∧
      Robbing v limit n s.centroids (new.map (fun c => c.dps)) s'.centroids ∧
      r.1 = (false, n + (new.map (fun c => c.dps)).flatten.length) ∧ ∀ d ∈ (new.map (fun c => c.dps)).flatten, d ∈ stored s) p
  | 0, n, w, m, s, p, hw, hga, hgs, hf, _ => absurd hf (by omega)
  | fuel + 1, n, w, m, s, p, hw, hga, hgs, hf, hlive => by
    unfold Server.stealLoop
    split
    · rename_i hlim
      obtain ⟨i, hl, hi⟩ := lookup_of_get hw hgs
      rw [run_bind, Go.wp_bind]
      refine Go.wp_mono (wp_nearest1_exact hm hw hr hl hi hlive v p) (fun q p1 hq => ?_)
      cases hq with
      | nothing h =>
        rw [run_pure, Go.wp_pure]
        exact ⟨hw, fun _ _ _ => rfl, s, [], by simpa using hga, hgs, .nothing hlim h, by simp, by simp⟩
      | empty j c s' hs hj hc hd he =>
        rw [run_pure, Go.wp_pure]
        refine ⟨hw.put hi hs.ok, fun b ns' hb => get_put_other hw hl hi ?_, s', [], ?_, get_put_self hl hi,
          by rw [he]; exact .empty hlim hj hc hd, by simp, by simp⟩
        · rcases hb with hb | hb
          · exact .inr hb
          · exact .inl hb.2
        · rw [get_put_other hw hl hi (.inl hne)]; simpa using hga
      | centroid j c x s' hs hj hc hd he hx hx' =>
        simp only
        have hw1 : WorldOK D (w.put i ns s') := hw.put hi hs.ok
        have hga1 : (w.put i ns s').get a ns = some m := by rw [get_put_other hw hl hi (.inl hne)]; exact hga
        obtain ⟨ia, hla, hia⟩ := lookup_of_get hw1 hga1
        have hma := hw1.mok hia
        have hm2 : MOK (D ns) { m with centroids := m.centroids ++ [x] } := by
          refine ⟨hma.wf.append ?_ ?_, hma.knn, hma.kfn, hma.len⟩
          · intro y hy; rw [List.mem_singleton.1 hy, hma.knn, hma.kfn]; exact hx.search
          · intro y hy; rw [List.mem_singleton.1 hy, hma.len]
            exact ⟨hx.dim.1, fun d hd => (hx.dim.2 d hd).trans hx.dim.1.symm⟩
        rw [run_bind, run_access_some hla hia, Go.wp_bind]
        simp only [pure_bind, Go.wp_pure, Option.getD_some]
        have hw2 := hw1.put hia hm2.ok
        have hgs2 : ((w.put i ns s').put ia ns { m with centroids := m.centroids ++ [x] }).get src ns = some s' := by
          rw [get_put_other hw1 hla hia (.inl (Ne.symm hne)), get_put_self hl hi]
        have hjl : j < s.centroids.length := (List.getElem?_eq_some_iff.1 hc).1
        have hsub : ∀ d ∈ stored s', d ∈ stored s := by
          intro d hd
          unfold stored at hd ⊢
          rw [he] at hd
          obtain ⟨y, hy, hyd⟩ := List.mem_flatMap.1 hd
          exact List.mem_flatMap.2 ⟨y, (List.eraseIdx_sublist ..).subset hy, hyd⟩
        refine Go.wp_mono (wp_stealLoop_exact hm hne hr v limit fuel (n + x.lenDP) _ _ s' p1 hw2 (get_put_self hla hia) hgs2
          (by rw [he, List.length_eraseIdx, if_pos hjl]; omega) (fun d hd => hlive d (hsub d hd))) (fun r p2 hrr => ?_)
        obtain ⟨r2, r3, s2, new, r4, r5, r6, r7, r8⟩ := hrr
        have hxl : x.lenDP = c.dps.length := by simp [Centroid.lenDP, hx']
        refine ⟨r2, fun b ns' hb => ?_, s2, x :: new, ?_, r5, ?_, ?_, ?_⟩
        · rw [r3 b ns' hb, get_put_other hw1 hla hia, get_put_other hw hl hi]
          · rcases hb with hb | hb
            · exact .inr hb
            · exact .inl hb.2
          · rcases hb with hb | hb
            · exact .inr hb
            · exact .inl hb.1
        · rw [r4]; simp
        · rw [he, hxl] at r6
          rw [List.map_cons, hx']
          exact .take hlim hj hc hd r6
        · rw [r7, hxl]; simp [hx', Nat.add_assoc]
        · intro d hd
          rw [List.map_cons, List.flatten_cons, hx'] at hd
          rcases List.mem_append.1 hd with h | h
          · exact List.mem_flatMap.2 ⟨c, List.mem_of_getElem? hc, h⟩
          · exact hsub d (r8 d h)
    · rename_i hlim
      rw [run_pure, Go.wp_pure]
      exact ⟨hw, fun _ _ _ => rfl, s, [], by simpa using hga, hgs, .enough (by omega), by simp, by simp⟩

theorem lists_same {l l' : List (Centroid F)} (h : List.Forall₂ (fun c c' : Centroid F => c'.dps.Sublist c.dps) l l')
    (hp : (l.flatMap (fun c => c.dps)).length = (l'.flatMap (fun c => c.dps)).length) : l'.map (fun c => c.dps) = l.map (fun c => c.dps) := by
  induction h with
  | nil => rfl
  | @cons c c' l l' h t ih =>
    have hle : (l'.flatMap (fun c => c.dps)).length ≤ (l.flatMap (fun c => c.dps)).length := by
      clear ih hp
      induction t with
      | nil => simp
      | cons h _ ih => simp only [List.flatMap_cons, List.length_append]; have := h.length_le; omega
    have := h.length_le
    simp only [List.flatMap_cons, List.length_append] at hp
    simp only [List.map_cons, List.cons.injEq]
    exact ⟨h.eq_of_length (by omega), ih (by omega)⟩

theorem listsAt_some {w : World F} {a : Addr} {ns : NS} {m : Manager F} (h : w.get a ns = some m) : listsAt w a ns = m.centroids.map (fun c => c.dps) := by
  simp [listsAt, h]

theorem wp_stealWith_exact {env : Env} (hm : MonoClock env.tk) {D : NS → Nat} {a src : Addr} (hne : a ≠ src) (hr : Reachable env src)
    {ns : NS} {v : List F} (limit : Int) {fuel : Nat} {w : World F} {m s : Manager F} (hw : WorldOK D w)
    (hga : w.get a ns = some m) (hgs : w.get src ns = some s) (hfuel : s.centroids.length < fuel)
    (hlive : ∀ d ∈ stored m ++ stored s, ∀ q, ¬ Dead (env.tk q) d) (p : Nat) :
    Go.wp ((Server.stealWith env fuel a ns src limit v).run w) (fun r _ => ∃ taken s',
      Robbing v limit 0 s.centroids taken s'.centroids ∧ r.2.get src ns = some s' ∧
      listsAt r.2 a ns = m.centroids.map (fun c => c.dps) ++ taken ∧ r.1 = ⟨taken.flatten.length, true⟩ ∧
      (∀ m, r.2.get a ns = some m → m.centroids ≠ [] → m.vec = (vecMean (m.centroids.map (fun c => c.vec))).1) ∧
      ∀ b ns', (ns' ≠ ns ∨ b ≠ a ∧ b ≠ src) → r.2.get b ns' = w.get b ns') p := by
  unfold Server.stealWith
  rw [run_bind, Go.wp_bind]
  refine Go.wp_mono (wp_stealLoop_exact hm hne hr v limit fuel 0 w m s p hw hga hgs hfuel
    (fun d hd => hlive d (List.mem_append_right _ hd))) (fun q p1 hq => ?_)
  obtain ⟨q2, q3, s', new, q4, q5, q6, q7, q8⟩ := hq
  obtain ⟨i, hl, hi⟩ := lookup_of_get q2 q4
  have hok := q2.mok hi
  rw [run_bind, Go.wp_bind, run_access_some hl hi, Go.wp_bind]
  refine Go.wp_mono (Manager.wp_moveVector hm hok.wf p1) (fun r p2 hrr => ?_)
  obtain ⟨heff, hb, hfor, hvec⟩ := hrr
  simp only [Go.wp_pure, run_pure]
  have hsame : r.2.centroids.map (fun c => c.dps) = (m.centroids ++ new).map (fun c => c.dps) := by
    refine lists_same hfor ?_
    have hc := heff.conserved
    simp only [List.nil_append] at hc
    have := Conserved.perm_of_live (tk := env.tk) (p := p2) hc (fun d hd q => by
      rw [Centroid.flat, List.flatMap_append] at hd
      rcases List.mem_append.1 hd with h | h
      · exact hlive d (List.mem_append_left _ h) q
      · exact hlive d (List.mem_append_right _ (q8 d (by rw [← List.flatMap_def]; exact h))) q)
    exact this.length_eq.symm
  refine ⟨new.map (fun c => c.dps), s', q6, ?_, ?_, ?_, fun m' hm' hne' => ?_, fun b ns' hb => ?_⟩
  · rw [get_put_other q2 hl hi (.inl (Ne.symm hne))]; exact q5
  · rw [listsAt_some (get_put_self hl hi), hsame, List.map_append]
  · rw [q7]; simp
  · rw [get_put_self hl hi] at hm'
    cases hm'
    refine (hvec (hb.2 (fun e => hne' ?_))).2
    have := hfor.length_eq
    rw [e] at this
    exact List.length_eq_zero_iff.1 this.symm
  · rw [get_put_other q2 hl hi, q3 b ns' hb]
    rcases hb with hb | hb
    · exact .inr hb
    · exact .inl hb.1

/-- C115. `StealCentroid` at node `a` from another node that can be reached, while nothing expires. One centroid after the other
changes sides, each time the one nearest to the vector that `a` had in the beginning. -/
theorem C115_steal {env : Env} (hm : MonoClock env.tk) {fac : Factory F} (hf : FactoryOK fac) {D : NS → Nat}
    {a src : Addr} (hne : a ≠ src) (hr : Reachable env src) {ns : NS} (hD : D ns ≠ 0) (limit : Int) {fuel : Nat} {w : World F} {s : Manager F}
    (hw : WorldOK D w) (hgs : w.get src ns = some s) (hfuel : s.centroids.length < fuel)
    (hlive : ∀ d ∈ storedAt w [a, src] ns, ∀ q, ¬ Dead (env.tk q) d) (p : Nat) :
    ∃ moved w' p', (Server.stealCentroid env fac fuel a ns src limit).run w p = .ok ((⟨moved, true⟩, w'), p') ∧
      Robbed limit a src ns s w w' moved := by
  have hls : ∀ d ∈ stored s, ∀ q, ¬ Dead (env.tk q) d := fun d hd =>
    hlive d (by rw [storedAt_cons]; exact List.mem_append_right _ (by rw [storedAt_one hgs]; exact hd))
  have key : Go.wp ((Server.stealCentroid env fac fuel a ns src limit).run w) (fun r _ => r.1.ok = true ∧
      Robbed limit a src ns s w r.2 r.1.transferredN) p := by
    unfold Server.stealCentroid
    cases hga : w.get a ns with
    | some m =>
      obtain ⟨i, hl, hi⟩ := lookup_of_get hw hga
      have hput : w.put i ns m = w := by
        unfold World.put
        obtain ⟨hlt, hi'⟩ := List.getElem?_eq_some_iff.1 hi
        rw [← hi', List.set_getElem_self]
      rw [run_bind, run_access_some hl hi]
      simp only [pure_bind, hput]
      refine Go.wp_mono (wp_stealWith_exact hm hne hr limit hw hga hgs hfuel (fun d hd => ?_) p) (fun r p' h => ?_)
      · rcases List.mem_append.1 hd with h | h
        · exact hlive d (by rw [storedAt_cons]; exact List.mem_append_left _ (by rw [storedAt_one hga]; exact h))
        · exact hls d h
      · obtain ⟨taken, s', h1, h2, h3, h4, h5, h6⟩ := h
        rw [h4]
        exact ⟨rfl, ⟨taken, s', by simpa [yardstick, hga] using h1, h2, by rw [h3, listsAt_some hga], rfl⟩, h5, h6⟩
    | none =>
      have hl := (get_eq_none_iff hw).1 hga
      rw [run_bind, run_access_none hl]
      simp only [pure_bind]
      rw [run_bind, Go.wp_bind]
      refine Go.wp_mono (wp_vec_heard (env := env) hw src ns p) (fun q p1 hq => ?_)
      obtain ⟨_, q2, q3⟩ := hq
      have hq1 := heard_reachable hr q3
      rw [hgs, Option.map_some] at hq1
      obtain ⟨is, hls', his⟩ := lookup_of_get hw hgs
      have hsl := (hw.mok his).len
      rw [hq1, q2, Option.getD_some]
      cases hv : s.vec with
      | nil => exact absurd (by rw [← hsl, hv]; rfl) hD
      | cons y ys =>
        simp only
        rw [run_bind, run_loc, Go.wp_bind, Go.wp_bind]
        refine safe_make hf (n := D ns) (by rw [← hsl, hv]) p1 (fun m hmok hc => ?_)
        rw [Go.wp_pure]
        simp only
        rw [run_bind, run_addSlot, Go.wp_bind, Go.wp_pure]
        have hw1 : WorldOK D (w.addSlot a ns m) := hw.addSlot a hmok.ok
        have hoth : ∀ b ns', (ns' ≠ ns ∨ b ≠ a) → (w.addSlot a ns m).get b ns' = w.get b ns' := by
          intro b ns' hb
          rcases Classical.em (ns' = ns) with rfl | h
          · exact get_addSlot_of_lookup hw (lookup_addSlot_node w (hb.resolve_left (by simp)) ns' ns' m)
          · exact get_addSlot_ns hw a b h m
        refine Go.wp_mono (wp_stealWith_exact hm hne hr limit hw1 (get_addSlot w a ns m) (by rw [hoth _ _ (.inr (Ne.symm hne))]; exact hgs)
          hfuel (fun d hd => ?_) p1) (fun r p' h => ?_)
        · rw [show stored m = [] by simp [stored, hc]] at hd
          exact hls d hd
        · obtain ⟨taken, s', h1, h2, h3, h4, h5, h6⟩ := h
          rw [h4]
          refine ⟨rfl, ⟨taken, s', by simpa [yardstick, hga, hv] using h1, h2, ?_, rfl⟩, h5, fun b ns' hb => ?_⟩
          · rw [h3, hc]; simp [listsAt, hga]
          · rw [h6 b ns' hb, hoth b ns' (hb.imp id (fun h => h.1))]
  obtain ⟨⟨⟨moved, ok⟩, w'⟩, p', h0, h1, h2⟩ := Go.wp_iff.1 key
  simp only at h1 h2
  subst h1
  exact ⟨moved, w', p', h0, h2⟩

end

namespace RobExample
open ServerExample

/-- Node 2 has four centroids, one of them empty. -/
def rich : World F64 := nodes2
  (man [.ofInt 1, .ofInt 0] [cen [.ofInt 1, .ofInt 0] [dp 1 0]])
  (man [.ofInt 1, .ofInt 1] [cen [.ofInt 0, .ofInt 1] [dp 0 1], cen [.ofInt 2, .ofInt 1] [dp 2 1, dp 2 1], cen [.ofInt 3, .ofInt 1] [dp 3 1],
    cen [.ofInt 1, .ofInt 1] []])
  (man [.ofInt 3, .ofInt 4] [cen [.ofInt 3, .ofInt 4] [dp 3 4]])

theorem rich_ok : WorldOK (fun _ => 2) rich :=
  nodes2_ok (man_mok rfl (by simp [cen, dp]) (by simp [cen])) (man_mok rfl (by simp [cen, dp]) (by simp [cen]))
    (man_mok rfl (by simp [cen, dp]) (by simp [cen]))

/-- The answer, and what nodes 1 and 2 hold in namespace 7, centroid by centroid. -/
def obsR (r : Server.StealResp × World F64) : Server.StealResp × List (List (DataPoint F64)) × List (List (DataPoint F64)) :=
  (r.1, listsAt r.2 1 7, listsAt r.2 2 7)

end RobExample
open RobExample ServerExample

/-- C115: node 1 takes the centroids nearest to `[1, 0]`, until it has two datapoints more. -/
example : ∃ r p', (Server.stealCentroid env fac 9 1 7 2 2).run rich 0 = .ok (r, p') ∧
    obsR r = (⟨3, true⟩, [[dp 1 0], [dp 3 1], [dp 2 1, dp 2 1]], [[dp 0 1], []]) :=
  exists_of_run (by decide +kernel)

/-- C115: for ten datapoints more it goes on to the empty centroid, drops it and stops, although another centroid is left. -/
example : ∃ r p', (Server.stealCentroid env fac 9 1 7 2 10).run rich 0 = .ok (r, p') ∧
    obsR r = (⟨3, true⟩, [[dp 1 0], [dp 3 1], [dp 2 1, dp 2 1]], [[dp 0 1]]) :=
  exists_of_run (by decide +kernel)

/-- C115: the theorem, for any limit. -/
example (limit : Int) {s : Manager F64} (hs : rich.get 2 7 = some s) (h : s.centroids.length < 9) :
    ∃ moved w' p', (Server.stealCentroid env fac 9 1 7 2 limit).run rich 0 = .ok ((⟨moved, true⟩, w'), p') ∧
      Robbed limit 1 2 7 s rich w' moved :=
  C115_steal (D := fun _ => 2) env_ok.clock fac_ok (by decide) ⟨fun _ => rfl, fun _ => rfl⟩ (by decide) limit rich_ok hs h (by
    have e : storedAt rich [1, 2] 7 = [dp 1 0, dp 0 1, dp 2 1, dp 2 1, dp 3 1] := rfl
    rw [e]
    simp [Dead, dp]) 0

end Trypo
