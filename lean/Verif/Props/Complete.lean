import Verif.Props.Core
import Verif.Props.Settle
import Verif.Props.ClientCalls
import Verif.Proofs.Found
import Verif.Spec.Complete
import Verif.Spec.Jobs

/-!
# C102: a query for enough datapoints finds all of them
-/

set_option linter.unusedSectionVars false
set_option linter.unusedVariables false

namespace Trypo
open GoFloat Spec

variable {F : Type} [GoFloat F] [LawfulCmp F]

theorem sees_iff {v u : List F} : sees v u = true ↔ ∃ s, cosineSimilarity v u = some s ∧ Comparable false s := by
  unfold sees isCandidate
  cases cosineSimilarity v u <;> simp

/-- A search that returns all candidates, when reading from a list with the candidates' vectors. -/
theorem kbest_flatMap {dist : List F → Option F} {asc : Bool} {cs : List (Centroid F)} {k : Nat} {res : List Nat}
    (h : KBest dist asc (cs.map (fun c => c.vec)) k res) (hk : cs.length ≤ k) :
    (res.flatMap (Manager.atD cs)).Perm ((cs.filter (fun c => isCandidate dist asc c.vec)).flatMap (fun c => c.dps)) := by
  have hv : ∀ i ∈ res, ∃ c s, cs[i]? = some c ∧ dist c.vec = some s ∧ Comparable asc s := by
    intro i hi
    obtain ⟨s, v, h1, h2, h3⟩ := h.valid i hi
    rw [List.getElem?_map] at h1
    cases hq : cs[i]? with
    | none => rw [hq] at h1; simp at h1
    | some q => rw [hq] at h1; cases h1; exact ⟨q, s, rfl, h2, h3⟩
  let P : Nat → Bool := fun i => (cs[i]?).any (fun c => isCandidate dist asc c.vec)
  have e : ((List.range cs.length).filter P).filterMap (fun i => cs[i]?) = cs.filter (fun c => isCandidate dist asc c.vec) := by
    conv_rhs => rw [← filterMap_getElem? cs]
    rw [List.filterMap_filter, List.filter_filterMap]
    refine List.filterMap_congr (fun i _ => ?_)
    have : ∀ (b : Bool) (x : Option (Centroid F)), b = x.any (fun c => isCandidate dist asc c.vec) →
        (if b = true then x else none) = x.filter (fun c => isCandidate dist asc c.vec) := by
      rintro b x rfl
      cases x with
      | none => simp
      | some q => cases hc : isCandidate dist asc q.vec <;> simp [hc, Option.filter]
    exact this _ _ rfl
  have hlen : ((List.range cs.length).filter P).length = (cs.filter (fun c => isCandidate dist asc c.vec)).length := by
    rw [← e, List.length_filterMap_eq_countP, List.countP_eq_length.2]
    intro i hi
    have := List.mem_range.1 (List.mem_filter.1 hi).1
    simp [this]
  have hsub : res.Perm ((List.range cs.length).filter P) := by
    refine List.Subperm.perm_of_length_le (List.subperm_of_subset h.nodup (fun i hi => ?_)) ?_
    · obtain ⟨q, s, h1, h2, h3⟩ := hv i hi
      rw [List.mem_filter]
      refine ⟨List.mem_range.2 (List.getElem?_eq_some_iff.1 h1).1, ?_⟩
      simp only [P, h1, Option.any_some, isCandidate, h2, h3, decide_true]
    · rw [hlen, h.length, List.countP_map, ← List.countP_eq_length_filter]
      have := List.countP_le_length (p := (fun c : Centroid F => isCandidate dist asc c.vec)) (l := cs)
      simp only [Function.comp_def]
      omega
  refine (hsub.flatMap_right _).trans (List.Perm.of_eq ?_)
  rw [← e]
  generalize (List.range cs.length).filter P = l
  induction l with
  | nil => rfl
  | cons i l ih =>
    rw [List.flatMap_cons, List.filterMap_cons, ih]
    unfold Manager.atD
    cases cs[i]? <;> simp

theorem visible_eq (v : List F) (m : Manager F) : visible v m =
    ((m.centroids.filter (fun c => sees v c.vec)).flatMap (fun c => c.dps)).filter (fun d => sees v d.vec) := by
  unfold visible
  rw [List.filter_flatMap]

theorem exists_filter_rest {α : Type} (P : α → Bool) : ∀ l : List α, ∃ rest, (l.filter P ++ rest).Perm l
  | [] => ⟨[], by simp⟩
  | x :: l => by
    obtain ⟨rest, h⟩ := exists_filter_rest P l
    by_cases hx : P x
    · exact ⟨rest, by rw [List.filter_cons_of_pos hx]; exact h.cons x⟩
    · refine ⟨x :: rest, ?_⟩
      rw [List.filter_cons_of_neg hx]
      exact List.perm_middle.trans (h.cons x)

theorem visible_sub (v : List F) (m : Manager F) : ∃ rest, (visible v m ++ rest).Perm (stored m) := by
  obtain ⟨r1, h1⟩ := exists_filter_rest (fun d : DataPoint F => sees v d.vec) ((m.centroids.filter (fun c => sees v c.vec)).flatMap (fun c => c.dps))
  obtain ⟨r2, h2⟩ := exists_filter_rest (fun c : Centroid F => sees v c.vec) m.centroids
  refine ⟨r1 ++ r2.flatMap (fun c => c.dps), ?_⟩
  rw [visible_eq]
  have h3 := h2.flatMap_right (fun c => c.dps)
  rw [List.flatMap_append] at h3
  unfold stored
  permc [h1, h3]

namespace Manager

/-- `KNNLookup` at a manager, asked for enough. -/
theorem wp_knnLookup_all {tk : Nat → Int} (hm : MonoClock tk) {cm : Manager F} (hw : cm.WF) (hs : cm.knn = knnCos)
    (hl : ∀ d ∈ stored cm, ∀ q, ¬ Dead (tk q) d) (v : List F) {k : Int} (hk : ((cm.centroids.length : Nat) : Int) ≤ k)
    (hk2 : (((stored cm).length : Nat) : Int) ≤ k) (drain : Bool) (p : Nat) :
    Go.wp (cm.knnLookup tk v k drain) (fun r _ => r.1.Perm (visible v cm)) p := by
  obtain ⟨n, rfl⟩ := Int.eq_ofNat_of_zero_le (show 0 ≤ k by omega)
  have hs' : cm.knn = fun t pl k => knnBrute t pl k false cosineSimilarity := hs
  obtain ⟨near, h1, h2⟩ := knnBrute_kbest v cosineSimilarity false n (cm.centroids.map (fun c => c.vec))
  have hin : ∀ i ∈ near, i < cm.centroids.length := by
    intro i hi
    obtain ⟨s, w, hw, _⟩ := h2.valid i hi
    simpa using (List.getElem?_eq_some_iff.1 hw).1
  have key : Go.wp (cm.knnLookup tk v n drain) (fun r _ => r.1.length =
        min n ((near.map (candAt (fun d => cosineSimilarity v d.vec) false cm.centroids)).sum)) p := by
    unfold knnLookup
    simp only [Go.wp_bind, Go.wp_checkMake, Go.wp_lift, centroidVecs]
    refine ⟨by omega, near, by rw [hs']; exact h1, ?_⟩
    refine Go.wp_mono (wp_lookupLoop_exact hm false cosineSimilarity v n drain near cm [] p hw h2.nodup hin hs' (by simp) hl) (fun r p' hr => ?_)
    simpa using hr
  refine Go.wp_mono (Go.wp_and key (Go.wp_and (wp_knnLookup_cand hm hw hs' v (by omega) drain p)
    (wp_knnLookup hm hw v (k := n) (by omega) drain p))) (fun r p' hr => ?_)
  obtain ⟨e1, e2, is, e3, _, _, e4⟩ := hr
  have : is = near := by
    rw [hs', centroidVecs] at e3
    exact (Except.ok.inj (h1.symm.trans e3)).symm
  subst this
  obtain ⟨rest, e5⟩ := e4.before
  have hp := kbest_flatMap h2 (by omega)
  have hsum : (is.map (candAt (fun d => cosineSimilarity v d.vec) false cm.centroids)).sum = (visible v cm).length := by
    rw [visible_eq, ← List.countP_eq_length_filter]
    show _ = List.countP _ (List.flatMap _ (cm.centroids.filter (fun c => isCandidate (cosineSimilarity v) false c.vec)))
    rw [← hp.countP_eq, List.countP_flatMap]
    rfl
  have hle : (visible v cm).length ≤ n := by
    obtain ⟨r2, h3⟩ := visible_sub v cm
    have := h3.length_eq
    simp only [List.length_append] at this
    omega
  rw [hsum, Nat.min_eq_right hle] at e1
  have hf := (e5.trans hp).filter (fun d => sees v d.vec)
  have hout : r.1.filter (fun d => sees v d.vec) = r.1 := List.filter_eq_self.2 (fun d hd => sees_iff.2 (e2 d hd))
  rw [List.filter_append, hout] at hf
  have hf' : (r.1 ++ rest.filter (fun d => sees v d.vec)).Perm (visible v cm) := by rw [visible_eq]; exact hf
  have hlen := hf'.length_eq
  rw [List.length_append, e1] at hlen
  have : rest.filter (fun d => sees v d.vec) = [] := List.eq_nil_of_length_eq_zero (by omega)
  rwa [this, List.append_nil] at hf'

end Manager

/-! ### At a node -/

theorem perm_of_live_out {tk : Nat → Int} {p : Nat} {a b out : List (DataPoint F)} (h : Conserved (tk p) a b out)
    (hl : ∀ d ∈ a, ∀ q, ¬ Dead (tk q) d) : (b ++ out).Perm a := by
  obtain ⟨lost, h1, h2⟩ := h
  have : lost = [] := by
    refine List.eq_nil_iff_forall_not_mem.2 (fun d hd => ?_)
    exact hl d (h1.mem_iff.1 (by simp [hd])) p (h2 d hd)
  simpa [this] using h1

theorem visibleAt_one {w : World F} {a : Addr} {ns : NS} {m : Manager F} (v : List F) (h : w.get a ns = some m) :
    visibleAt v w [a] ns = visible v m := by simp [visibleAt, h]

theorem wp_server_knn_all {env : Env} (hm : MonoClock env.tk) {D : NS → Nat} {w : World F} (hw : WorldOK D w) (a : Addr) (ns : NS) (v : List F)
    {k : Int} (hn : Enough w [a] ns k) (drain : Bool) (hl : ∀ d ∈ storedAt w [a] ns, ∀ q, ¬ Dead (env.tk q) d) (p : Nat) :
    Go.wp ((Server.knnLookup env a ns v k drain).run w) (fun r _ => GotAll D ns drain [a] (visibleAt v w [a] ns) w r.2 (r.1.getD [])) p := by
  have h1 : Go.wp ((Server.knnLookup env a ns v k drain).run w) (fun r _ => (r.1.getD []).Perm (visibleAt v w [a] ns)) p := by
    unfold Server.knnLookup
    cases hg : w.get a ns with
    | none =>
      rw [run_access_none ((get_eq_none_iff hw).1 hg), Go.wp_pure]
      simp [visibleAt, hg]
    | some m =>
      obtain ⟨i, hl', hi⟩ := lookup_of_get hw hg
      have hok := hw.mok hi
      rw [storedAt_one hg] at hl
      have hc := hn.2 a (by simp) m hg
      rw [storedAt_one hg] at hc
      push_cast at hc
      rw [run_access_some hl' hi, Go.wp_bind, visibleAt_one v hg]
      refine Go.wp_mono (Manager.wp_knnLookup_all hm hok.wf hok.knn hl v (by omega) (by omega) drain p) (fun r p' hr => ?_)
      rw [Go.wp_pure]
      exact hr
  refine Go.wp_mono (Go.wp_and h1 (wp_server_knn hm hw a ns v hn.1 drain p)) (fun r p' hr => ?_)
  obtain ⟨e1, _, e2, e3⟩ := hr
  refine ⟨e2.ok, e1, ?_, fun b ns' hb => e2.others b ns' (hb.imp (fun h => by simpa using h) id)⟩
  cases drain with
  | true => exact (e1.symm.append_left _).trans (perm_of_live_out e3 hl)
  | false => simpa using perm_of_live_out e3 hl

theorem wp_client_knn_all {env : Env} (hm : MonoClock env.tk) {D : NS → Nat} {w : World F} (hw : WorldOK D w) (a : Addr) (hr : Reachable env a)
    (ns : NS) (v : List F) {k : Int} (hn : Enough w [a] ns k) (drain : Bool) (hl : ∀ d ∈ storedAt w [a] ns, ∀ q, ¬ Dead (env.tk q) d) (p : Nat) :
    Go.wp ((Client.knnLookup env a ns v k drain).run w) (fun r _ => GotAll D ns drain [a] (visibleAt v w [a] ns) w r.2 r.1) p := by
  unfold Client.knnLookup Client.call
  simp only [run_bind, Go.wp_bind, run_loc, Go.wp_checkMake]
  refine ⟨hn.1, ?_⟩
  rw [Go.wp_pure]
  refine wp_sent ?_
  rw [Go.wp_pure]
  simp only [hr.1 p, if_true, run_bind, Go.wp_bind]
  refine Go.wp_mono (wp_server_knn_all hm hw a ns v hn drain hl (p + 1)) (fun r p1 h => ?_)
  rw [run_loc, Go.wp_bind]
  refine wp_arrived ?_
  rw [Go.wp_pure]
  simp only [hr.2 p1, if_true, run_pure, Go.wp_pure]
  exact h

/-! ### At several nodes -/

theorem visibleAt_cons (v : List F) (w : World F) (a : Addr) (l : List Addr) (ns : NS) :
    visibleAt v w (a :: l) ns = visibleAt v w [a] ns ++ visibleAt v w l ns := by simp [visibleAt]

theorem visibleAt_congr {v : List F} {w w' : World F} {l : List Addr} {ns : NS} (h : ∀ a ∈ l, w'.get a ns = w.get a ns) :
    visibleAt v w' l ns = visibleAt v w l ns := by
  unfold visibleAt
  refine List.flatMap_congr (fun a ha => ?_)
  rw [h a ha]

theorem visibleAt_sub (v : List F) (w : World F) (ns : NS) : ∀ l : List Addr, ∃ rest, (visibleAt v w l ns ++ rest).Perm (storedAt w l ns)
  | [] => ⟨[], by simp [visibleAt, storedAt]⟩
  | a :: l => by
    obtain ⟨r1, h1⟩ := visibleAt_sub v w ns l
    rw [visibleAt_cons, storedAt_cons]
    cases hg : w.get a ns with
    | none => exact ⟨r1, by simpa [visibleAt, storedAt, hg] using h1⟩
    | some m =>
      obtain ⟨r2, h2⟩ := visible_sub v m
      rw [visibleAt_one v hg, storedAt_one hg]
      exact ⟨r1 ++ r2, by permc [h1, h2]⟩

theorem storedAt_get {w : World F} {l : List Addr} {a : Addr} {ns : NS} {d : DataPoint F} (ha : a ∈ l) (hd : d ∈ storedAt w [a] ns) :
    d ∈ storedAt w l ns := by
  unfold storedAt at hd ⊢
  rw [List.mem_flatMap] at hd ⊢
  obtain ⟨b, hb, hd⟩ := hd
  rw [List.mem_singleton] at hb
  subst hb
  exact ⟨b, ha, hd⟩

theorem visibleAt_nil_of_stored {v : List F} {w : World F} {l : List Addr} {ns : NS} (h : (storedAt w l ns).length = 0) : visibleAt v w l ns = [] := by
  obtain ⟨r, h1⟩ := visibleAt_sub v w ns l
  have := h1.length_eq
  rw [h, List.length_append] at this
  exact List.eq_nil_of_length_eq_zero (by omega)

theorem wp_getFrom_all {env : Env} (hm : MonoClock env.tk) {D : NS → Nat} (ns : NS) (v : List F) (n : Int) (drain : Bool) :
    ∀ (as : List Addr) (w : World F) (res : List (DataPoint F)) (p : Nat), WorldOK D w → as.Nodup → (∀ a ∈ as, Reachable env a) →
      (∀ d ∈ storedAt w as ns, ∀ q, ¬ Dead (env.tk q) d) → Enough w as ns (n - res.length) →
      Go.wp ((Dps.getFrom env ns v n drain as res).run w) (fun r _ => ∃ out, r.1 = res ++ out ∧
        GotAll D ns drain as (visibleAt v w as ns) w r.2 out) p
  | [], w, res, p, hw, _, _, _, _ => by
    unfold Dps.getFrom
    rw [run_pure, Go.wp_pure]
    exact ⟨[], by simp, hw, by simp [visibleAt], by cases drain <;> simp [visibleAt, storedAt], fun _ _ _ => rfl⟩
  | a :: as, w, res, p, hw, hnd, hr, hl, hn => by
    rw [List.nodup_cons] at hnd
    unfold Dps.getFrom
    rw [run_bind, Go.wp_bind]
    have hst : (storedAt w (a :: as) ns).length = (storedAt w [a] ns).length + (storedAt w as ns).length := by
      rw [storedAt_cons, List.length_append]
    have hn1 : Enough w [a] ns (n - res.length) := ⟨hn.1, fun b hb m hg => by
      rw [List.mem_singleton] at hb
      subst hb
      have := hn.2 b (by simp) m hg
      rw [hst] at this
      push_cast at this ⊢
      omega⟩
    refine Go.wp_mono (wp_client_knn_all hm hw a (hr a (by simp)) ns v hn1 drain (fun d hd => hl d (storedAt_get (by simp) hd)) p)
      (fun r p1 h1 => ?_)
    have hoth : ∀ b ∈ as, r.2.get b ns = w.get b ns := fun b hb => h1.others b ns (.inl (by
      rw [List.mem_singleton]; rintro rfl; exact hnd.1 hb))
    have hvis : visibleAt v r.2 as ns = visibleAt v w as ns := visibleAt_congr hoth
    have hsto : storedAt r.2 as ns = storedAt w as ns := storedAt_congr hoth
    have hlen1 := h1.found.length_eq
    have hle : (visibleAt v w [a] ns).length ≤ (storedAt w [a] ns).length := by
      obtain ⟨q, hq⟩ := visibleAt_sub v w ns [a]
      have := hq.length_eq
      rw [List.length_append] at this
      omega
    by_cases hfull : (((res ++ r.1).length : Nat) : Int) ≥ n
    · rw [if_pos hfull, run_pure, Go.wp_pure]
      rw [List.length_append] at hfull
      push_cast at hfull
      have hz : (storedAt w as ns).length = 0 := by
        by_contra hne
        have : ∃ b ∈ as, ∃ m, w.get b ns = some m := by
          by_contra hno
          push Not at hno
          refine hne ?_
          rw [show storedAt w as ns = [] from List.flatMap_eq_nil_iff.2 (fun b hb => ?_)]
          · rfl
          · cases hg : w.get b ns with
            | none => rfl
            | some m => exact absurd hg (hno b hb m)
        obtain ⟨b, hb, m, hg⟩ := this
        have := hn.2 b (by simp [hb]) m hg
        rw [hst] at this
        push_cast at this
        omega
      have hv := visibleAt_nil_of_stored (v := v) hz
      have hs0 : storedAt w as ns = [] := List.eq_nil_of_length_eq_zero hz
      refine ⟨r.1, rfl, h1.ok, ?_, ?_, fun b ns' hb => h1.others b ns' (hb.imp (fun h e => h (by
        rw [List.mem_singleton] at e; simp [e])) id)⟩
      · rw [visibleAt_cons, hv, List.append_nil]; exact h1.found
      · rw [visibleAt_cons, hv, List.append_nil, storedAt_cons, hsto, storedAt_cons w, hs0, List.append_nil, List.append_nil]
        exact h1.rest
    · rw [if_neg hfull]
      rw [List.length_append] at hfull
      push_cast at hfull
      refine Go.wp_mono (wp_getFrom_all hm ns v n drain as r.2 (res ++ r.1) p1 h1.ok hnd.2 (fun b hb => hr b (by simp [hb]))
        (fun d hd => ?_) ⟨?_, fun b hb m hg => ?_⟩) (fun q p2 hq => ?_)
      · rw [hsto] at hd
        refine hl d ?_
        rw [storedAt_cons]
        exact List.mem_append_right _ hd
      · rw [List.length_append]; push_cast; omega
      · rw [hoth b hb] at hg
        have := hn.2 b (by simp [hb]) m hg
        rw [hst] at this
        rw [hsto, List.length_append]
        push_cast at this ⊢
        omega
      · obtain ⟨out, q1, q2⟩ := hq
        have ha : storedAt q.2 [a] ns = storedAt r.2 [a] ns := storedAt_congr (fun b hb => q2.others b ns (.inl (by
          rw [List.mem_singleton] at hb; rw [hb]; exact hnd.1)))
        refine ⟨r.1 ++ out, by rw [q1, List.append_assoc], q2.ok, ?_, ?_, fun b ns' hb => (q2.others b ns' (hb.imp (fun h e => h (by simp [e])) id)).trans
          (h1.others b ns' (hb.imp (fun h e => h (by rw [List.mem_singleton] at e; simp [e])) id))⟩
        · rw [visibleAt_cons, ← hvis]
          exact h1.found.append q2.found
        · have e1 := h1.rest
          have e2 := q2.rest
          rw [hvis, hsto] at e2
          rw [visibleAt_cons, storedAt_cons, ha, storedAt_cons w]
          cases drain with
          | false =>
            simp only [Bool.false_eq_true, if_false, List.append_nil] at e1 e2 ⊢
            exact e1.append e2
          | true =>
            simp only [if_true] at e1 e2 ⊢
            permc [e1, e2]

/-! ### The nodes that are asked -/

theorem sees_ne_nil {v u : List F} (hv : v ≠ []) (h : sees v u = true) : u ≠ [] := by
  rintro rfl
  obtain ⟨s, h1, _⟩ := sees_iff.1 h
  unfold cosineSimilarity at h1
  rw [if_pos (by simpa using hv)] at h1
  cases h1

/-- The nodes that are asked, if all nodes answer. -/
theorem bestFit_asked {v : List F} (hv : v ≠ []) {addrs as : List Addr} {answers : List (Addr × Option (List F))}
    (h1 : (answers.map (fun q => q.1)).Perm addrs) (h : BestFit (cosineSimilarity v) false answers as) {Q : Addr → Bool}
    (hQ : ∀ q ∈ answers, Q q.1 = match q.2 with | some u => sees v u | none => false) : as.Perm (addrs.filter Q) := by
  obtain ⟨chosen, rfl, h2, _⟩ := h
  have h3 := h2.map (fun q => q.1)
  rw [List.map_map] at h3
  refine List.Perm.trans (List.Perm.of_eq (by simp [Function.comp_def])) (h3.trans ?_)
  refine List.Perm.trans (List.Perm.of_eq ?_) (h1.filter Q)
  rw [List.filter_map]
  congr 1
  refine List.filter_congr (fun q hq => ?_)
  rw [Function.comp_apply, hQ q hq]
  cases q.2 with
  | none => rfl
  | some u =>
    simp only
    cases hs : sees v u with
    | false => rw [show isCandidate (cosineSimilarity v) false u = false from hs, Bool.and_false]
    | true => rw [show isCandidate (cosineSimilarity v) false u = true from hs]; simp [sees_ne_nil hv hs]

theorem storedAt_perm {w : World F} {l l' : List Addr} (ns : NS) (h : l.Perm l') : (storedAt w l ns).Perm (storedAt w l' ns) :=
  h.flatMap_right _

theorem visibleAt_perm {v : List F} {w : World F} {l l' : List Addr} (ns : NS) (h : l.Perm l') : (visibleAt v w l ns).Perm (visibleAt v w l' ns) :=
  h.flatMap_right _

/-- Asking some of the nodes. -/
theorem Spec.GotAll.widen {D : NS → Nat} {ns : NS} {drain : Bool} {as rest addrs : List Addr} {all all' : List (DataPoint F)} {w w' : World F}
    {out : List (DataPoint F)} (h : GotAll D ns drain as all w w' out) (hp : (as ++ rest).Perm addrs) (hnd : addrs.Nodup) (ha : all.Perm all') :
    GotAll D ns drain addrs all' w w' out := by
  have hnd' := List.nodup_append'.1 (hp.nodup_iff.2 hnd)
  have hrest : storedAt w' rest ns = storedAt w rest ns := storedAt_congr (fun b hb => h.others b ns (.inl (fun hb' =>
    hnd'.2.2 hb' hb)))
  refine ⟨h.ok, h.found.trans ha, ?_, fun b ns' hb => h.others b ns' (hb.imp (fun hb e => hb (hp.subset (by simp [e]))) id)⟩
  have e1 := storedAt_perm (w := w') ns hp
  have e2 := storedAt_perm (w := w) ns hp
  rw [storedAt_append, hrest] at e1
  rw [storedAt_append] at e2
  have e3 := h.rest
  cases drain with
  | false =>
    simp only [Bool.false_eq_true, if_false, List.append_nil] at e3 ⊢
    permc [e1, e2, e3]
  | true =>
    simp only [if_true] at e3 ⊢
    permc [e1, e2, e3, ha]

theorem wp_get_all {env : Env} (hm : MonoClock env.tk) {D : NS → Nat} {w : World F} (hw : WorldOK D w) (ns : NS) (v : List F) {n : Int}
    (drain : Bool) {as addrs : List Addr} {Q : Addr → Bool} (ha : as.Perm (addrs.filter Q)) (hnd : addrs.Nodup)
    (hr : ∀ a ∈ addrs, Reachable env a) (hl : ∀ d ∈ storedAt w addrs ns, ∀ q, ¬ Dead (env.tk q) d) (hn : Enough w addrs ns n) (p : Nat) :
    Go.wp ((Dps.getDataPoints env as ns v n drain).run w) (fun r _ => GotAll D ns drain addrs (visibleAt v w (addrs.filter Q) ns) w r.2 r.1) p := by
  obtain ⟨rest, hrest⟩ := exists_filter_rest Q addrs
  have hp : (as ++ rest).Perm addrs := (ha.append_right rest).trans hrest
  have hsub : ∀ a ∈ as, a ∈ addrs := fun a h => hp.subset (by simp [h])
  have hst := (storedAt_perm (w := w) ns hp).length_eq
  rw [storedAt_append, List.length_append] at hst
  unfold Dps.getDataPoints
  simp only [run_bind, Go.wp_bind, run_loc, Go.wp_checkMake]
  refine ⟨hn.1, ?_⟩
  rw [Go.wp_pure]
  refine Go.wp_mono (wp_getFrom_all hm ns v n drain as w [] p hw (List.nodup_append'.1 (hp.nodup_iff.2 hnd)).1 (fun a h => hr a (hsub a h))
    (fun d hd => hl d ((storedAt_perm ns hp).subset (by rw [storedAt_append]; exact List.mem_append_left _ hd)))
    ⟨by simpa using hn.1, fun a h m hg => ?_⟩) (fun r p' h => ?_)
  · have := hn.2 a (hsub a h) m hg
    push_cast at this ⊢
    simp only [List.length_nil, Nat.cast_zero]
    omega
  · obtain ⟨out, e1, e2⟩ := h
    rw [List.nil_append] at e1
    rw [e1]
    exact e2.widen hp hnd (visibleAt_perm ns ha)

theorem heard_eq {env : Env} {a : Addr} (h : Reachable env a) {β : Type} {val r : Option β} (hh : Heard env a val r) : r = val := by
  rcases hh with hh | ⟨_, p, hp | hp⟩
  · exact hh
  · rw [h.1 p] at hp; cases hp
  · rw [h.2 p] at hp; cases hp

/-- C102, `GetDataPointsFast`. With nodes that can be reached, nothing that expires, nobody else at work and `n` large enough, the answer is
exactly what is visible at the nodes whose manager vector is comparable with `v`. -/
theorem C102_getFast {env : Env} (he : EnvOK env) {D : NS → Nat} {w : World F} (hw : WorldOK D w) (ns : NS) {v : List F} (hv : v ≠ []) {n : Int}
    (drain : Bool) {addrs : List Addr} (hnd : addrs.Nodup) (hr : ∀ a ∈ addrs, Reachable env a)
    (hl : ∀ d ∈ storedAt w addrs ns, ∀ q, ¬ Dead (env.tk q) d) (hn : Enough w addrs ns n) (p : Nat) :
    ∃ out w' p', (Dps.getDataPointsFast env knnCos addrs ns v n drain).run w p = .ok ((out, w'), p') ∧
      GotAll D ns drain addrs (visibleAt v w (seenNodes v w addrs ns) ns) w w' out := by
  have key : Go.wp ((Dps.getDataPointsFast env knnCos addrs ns v n drain).run w) (fun r _ =>
      GotAll D ns drain addrs (visibleAt v w (seenNodes v w addrs ns) ns) w r.2 r.1) p := by
    unfold Dps.getDataPointsFast
    rw [run_bind, Go.wp_bind]
    refine Go.wp_mono (wp_bestFast he hw knnCos_searchesBest addrs ns v p) (fun r p1 h => ?_)
    obtain ⟨h1, h2, answers, h3, h4, h5⟩ := h
    rw [h2]
    refine wp_get_all he.clock hw ns v drain (bestFit_asked hv h3 h5 (fun q hq => ?_)) hnd hr hl hn p1
    rw [heard_eq (hr q.1 (h3.subset (List.mem_map.2 ⟨q, hq, rfl⟩))) (h4 q hq)]
    cases w.get q.1 ns <;> rfl
  obtain ⟨r, p', h0, h1⟩ := Go.wp_iff.1 key
  exact ⟨r.1, r.2, p', h0, h1⟩

/-- C102, `GetDataPointsAccurate`: as above, but no node is left out. -/
theorem C102_getAccurate {env : Env} (he : EnvOK env) {D : NS → Nat} {w : World F} (hw : WorldOK D w) (ns : NS) {v : List F} (hv : v ≠ []) {n : Int}
    (drain : Bool) {addrs : List Addr} (hnd : addrs.Nodup) (hr : ∀ a ∈ addrs, Reachable env a)
    (hl : ∀ d ∈ storedAt w addrs ns, ∀ q, ¬ Dead (env.tk q) d) (hn : Enough w addrs ns n) (p : Nat) :
    ∃ out w' p', (Dps.getDataPointsAccurate env knnCos addrs ns v n drain).run w p = .ok ((out, w'), p') ∧
      GotAll D ns drain addrs (visibleAt v w addrs ns) w w' out := by
  have key : Go.wp ((Dps.getDataPointsAccurate env knnCos addrs ns v n drain).run w) (fun r _ =>
      GotAll D ns drain addrs (visibleAt v w addrs ns) w r.2 r.1) p := by
    unfold Dps.getDataPointsAccurate
    rw [run_bind, Go.wp_bind]
    refine Go.wp_mono (wp_bestAccurate he hw knnCos_searchesBest addrs ns v p) (fun r p1 h => ?_)
    obtain ⟨h1, h2, answers, h3, h4, h5⟩ := h
    rw [h2]
    let Q : Addr → Bool := fun a => match w.get a ns with | some m => m.centroids.any (fun c => sees v c.vec) | none => false
    refine Go.wp_mono (wp_get_all he.clock hw ns v drain (Q := Q) (bestFit_asked hv h3 h5 (fun q hq => ?_)) hnd hr hl hn p1) (fun r p2 h => ?_)
    · obtain ⟨val, e1, e2⟩ := h4 q hq
      rw [heard_eq (hr q.1 (h3.subset (List.mem_map.2 ⟨q, hq, rfl⟩))) e2]
      rcases e1 with ⟨e1, rfl⟩ | ⟨m, u, e1, rfl, e3⟩
      · simp only [Q, e1]
      · simp only [Q, e1]
        rcases e3 with ⟨rfl, e3⟩ | ⟨c, hc, rfl, e3, _⟩
        · rw [show sees v [] = false from ?_]
          · rw [List.any_eq_false]
            exact fun c hc => by rw [show sees v c.vec = false from e3 c hc]; simp
          · cases hs : sees v [] with
            | false => rfl
            | true => exact absurd rfl (sees_ne_nil hv hs)
        · rw [show sees v c.vec = true from e3, List.any_eq_true]
          exact ⟨c, hc, e3⟩
    · have : visibleAt v w (addrs.filter Q) ns = visibleAt v w addrs ns := by
        clear h hn hl hr hnd h5 h3
        induction addrs with
        | nil => rfl
        | cons a l ih =>
          by_cases hq : Q a
          · rw [List.filter_cons_of_pos hq, visibleAt_cons, ih, ← visibleAt_cons]
          · rw [List.filter_cons_of_neg hq, visibleAt_cons v w a l, ih]
            suffices h : visibleAt v w [a] ns = [] by rw [h, List.nil_append]
            cases hg : w.get a ns with
            | none => simp [visibleAt, hg]
            | some m =>
              rw [visibleAt_one v hg]
              simp only [Q, hg] at hq
              unfold visible
              rw [List.filter_eq_nil_iff.2 (fun c hc h => hq (List.any_eq_true.2 ⟨c, hc, h⟩))]
              rfl
      rw [← this]
      exact h
  obtain ⟨r, p', h0, h1⟩ := Go.wp_iff.1 key
  exact ⟨r.1, r.2, p', h0, h1⟩

/-- C102, the HTTP query. -/
theorem C102_query {env : Env} (he : EnvOK env) {D : NS → Nat} {w : World F} (hw : WorldOK D w) (o : Api.QueryOpts F) (hv : o.vec ≠ [])
    {addrs : List Addr} (hnd : addrs.Nodup) (hr : ∀ a ∈ addrs, Reachable env a)
    (hl : ∀ d ∈ storedAt w addrs o.ns, ∀ q, ¬ Dead (env.tk q) d) (hn : Enough w addrs o.ns o.n) (p : Nat) :
    ∃ (out : List (DataPoint F)) (w' : World F) (p' : Nat), (Api.queryDataPoint env addrs (some o)).run w p =
        .ok (((200, out.map (fun d => ⟨d.vec, d.payload, d.expires, d.expireEnabled⟩)), w'), p') ∧
      GotAll D o.ns o.drain addrs (visibleAt o.vec w (if o.accurate then addrs else seenNodes o.vec w addrs o.ns) o.ns) w w' out := by
  cases ha : o.accurate with
  | true =>
    obtain ⟨out, w', p', h0, h1⟩ := C102_getAccurate he hw o.ns hv o.drain hnd hr hl hn p
    refine ⟨out, w', p', ?_, h1⟩
    unfold Api.queryDataPoint
    simp only [ha, if_true]
    exact (run_bind_ok h0).trans (by rw [run_pure]; rfl)
  | false =>
    obtain ⟨out, w', p', h0, h1⟩ := C102_getFast he hw o.ns hv o.drain hnd hr hl hn p
    refine ⟨out, w', p', ?_, h1⟩
    unfold Api.queryDataPoint
    simp only [ha, Bool.false_eq_true, if_false]
    exact (run_bind_ok h0).trans (by rw [run_pure]; rfl)

/-! ### In exact arithmetic -/

theorem sees_real {v u : List ℝ} (h : u.length = v.length) : sees v u = true := by
  obtain ⟨s, hs, hs1, hs2⟩ := cos_real_bound v u h
  unfold sees isCandidate
  rw [hs]
  simp only [decide_eq_true_eq, Comparable, Better, Bool.false_eq_true, if_false, rlt, rneg, rmaxFloat]
  have h53 : (2 : ℝ) ^ 1024 = 2 ^ 971 * 2 ^ 53 := by rw [← pow_add]
  have h971 : (1 : ℝ) ≤ 2 ^ 971 := one_le_pow₀ (by norm_num)
  rw [h53]
  generalize (2 : ℝ) ^ 971 = x at h971
  norm_num
  linarith

/-- C102 in exact arithmetic: a query vector of the namespace's dimension finds everything there is, fast or accurate. -/
theorem C102_exact {env : Env} (he : EnvOK env) {D : NS → Nat} {w : World ℝ} (hw : WorldOK D w) (o : Api.QueryOpts ℝ) (hD : D o.ns ≠ 0)
    (hv : o.vec.length = D o.ns) {addrs : List Addr} (hnd : addrs.Nodup) (hr : ∀ a ∈ addrs, Reachable env a)
    (hl : ∀ d ∈ storedAt w addrs o.ns, ∀ q, ¬ Dead (env.tk q) d) (hn : Enough w addrs o.ns o.n) (p : Nat) :
    ∃ (out : List (DataPoint ℝ)) (w' : World ℝ) (p' : Nat), (Api.queryDataPoint env addrs (some o)).run w p =
        .ok (((200, out.map (fun d => ⟨d.vec, d.payload, d.expires, d.expireEnabled⟩)), w'), p') ∧
      out.Perm (storedAt w addrs o.ns) ∧ (o.drain = true → storedAt w' addrs o.ns = []) := by
  obtain ⟨out, w', p', h0, h1⟩ := C102_query he hw o (by intro h; rw [h] at hv; exact hD hv.symm) hnd hr hl hn p
  have hvis : ∀ a, visibleAt o.vec w [a] o.ns = storedAt w [a] o.ns := by
    intro a
    cases hg : w.get a o.ns with
    | none => simp [visibleAt, storedAt, hg]
    | some m =>
      obtain ⟨i, _, hi⟩ := lookup_of_get hw hg
      have hok := hw.mok hi
      rw [visibleAt_one _ hg, storedAt_one hg]
      unfold visible stored
      rw [List.filter_eq_self.2 (fun c hc => sees_real (by rw [(hok.wf.dim c hc).1, hok.len, hv]))]
      refine List.flatMap_congr (fun c hc => List.filter_eq_self.2 (fun d hd => sees_real ?_))
      rw [(hok.wf.dim c hc).2 d hd, (hok.wf.dim c hc).1, hok.len, hv]
  have hall : ∀ l, visibleAt o.vec w l o.ns = storedAt w l o.ns := by
    intro l
    induction l with
    | nil => rfl
    | cons a l ih => rw [visibleAt_cons, storedAt_cons, hvis, ih]
  have hseen : storedAt w (seenNodes o.vec w addrs o.ns) o.ns = storedAt w addrs o.ns := by
    clear h1 hl hn hr hnd h0
    induction addrs with
    | nil => rfl
    | cons a l ih =>
      unfold seenNodes at ih ⊢
      cases hg : w.get a o.ns with
      | none =>
        rw [List.filter_cons_of_neg (by simp [hg]), storedAt_cons w a, ih]
        simp [storedAt, hg]
      | some m =>
        obtain ⟨i, _, hi⟩ := lookup_of_get hw hg
        rw [List.filter_cons_of_pos (by simp only [hg]; exact sees_real (by rw [(hw.mok hi).len, hv])), storedAt_cons w a (List.filter _ l), ih,
          ← storedAt_cons]
  have hfin : visibleAt o.vec w (if o.accurate then addrs else seenNodes o.vec w addrs o.ns) o.ns = storedAt w addrs o.ns := by
    rw [hall]; split
    · rfl
    · exact hseen
  rw [hfin] at h1
  refine ⟨out, w', p', h0, h1.found, fun hd => ?_⟩
  have := h1.rest.length_eq
  rw [hd, if_pos rfl, List.length_append] at this
  exact List.eq_nil_of_length_eq_zero (by omega)

open ServerExample

theorem enough_of {w : World F} {nodes : List Addr} {ns : NS} {n : Int} (h : 0 ≤ n ∧ ∀ a ∈ nodes,
    (((storedAt w nodes ns).length + (((w.get a ns).map (fun m => m.centroids.length)).getD 0) : Nat) : Int) ≤ n) : Enough w nodes ns n :=
  ⟨h.1, fun a ha m hg => by have := h.2 a ha; rw [hg] at this; exact this⟩

/-- C102: the theorem for two nodes; node 3 does not have the namespace. Three datapoints, one centroid each: 4 is enough. -/
example : ∃ (out : List (DataPoint F64)) (w' : World F64) (p' : Nat), (Api.queryDataPoint env [1, 2, 3] (some ⟨7, true, [F64.ofInt 1, .ofInt 1], 4, true⟩)).run two 0 =
      .ok (((200, out.map (fun d => ⟨d.vec, d.payload, d.expires, d.expireEnabled⟩)), w'), p') ∧
    GotAll (fun _ => 2) 7 true [1, 2, 3] (visibleAt [F64.ofInt 1, .ofInt 1] two [1, 2, 3] 7) two w' out :=
  C102_query env_ok two_ok ⟨7, true, [F64.ofInt 1, .ofInt 1], 4, true⟩ (by simp) (by decide) (fun a _ => ⟨fun _ => rfl, fun _ => rfl⟩)
    (by
      intro d hd q h
      have : ∀ d ∈ storedAt two [1, 2, 3] 7, d.expireEnabled = false := by decide +kernel
      simp [Dead, this d hd] at h)
    (enough_of ⟨by decide, by decide +kernel⟩) 0

/-- C102: what is visible there. -/
example : visibleAt [F64.ofInt 1, .ofInt 1] two [1, 2, 3] 7 = [dp 1 0, dp 2 0, dp 0 1] := by decide +kernel

/-- C102: asking for as many as there are is not enough: node 1 has an empty centroid that is nearest. -/
example : ∃ r p', (Api.queryDataPoint env [1] (some ⟨7, true, [F64.ofInt 1, .ofInt 0], 1, false⟩)).run
      (nodes2 (man [.ofInt 1, .ofInt 1] [cen [.ofInt 1, .ofInt 0] [], cen [.ofInt 0, .ofInt 1] [dp 0 1]])
        (man [.ofInt 0, .ofInt 1] []) (man [.ofInt 3, .ofInt 4] [])) 0 = .ok (r, p') ∧ (r.1.1, r.1.2.length) = (200, 0) :=
  exists_of_run (f := fun r : (Nat × List (Api.DP F64)) × World F64 => (r.1.1, r.1.2.length)) (by decide +kernel)

end Trypo
