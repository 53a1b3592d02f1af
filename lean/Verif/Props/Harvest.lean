import Verif.Props.Complete
import Verif.Spec.Harvest

/-!
# C106: a query answers with the best datapoints of the nearest centroids of the nearest nodes
-/

set_option linter.unusedSectionVars false
set_option linter.unusedVariables false

namespace Trypo
open GoFloat Spec

variable {F : Type} [GoFloat F] [LawfulCmp F]

theorem Spec.Survivors.wider {t t' s s' : Int} {b a : List (DataPoint F)} (h : Survivors t t' b a) (h1 : s ≤ t) (h2 : t' ≤ s') :
    Survivors s s' b a := by
  constructor
  · refine List.Sublist.trans (List.monotone_filter_right _ (fun d hd => ?_)) h.keeps
    simp only [decide_eq_true_eq] at hd ⊢
    exact fun hx => hd ⟨hx.1, lt_of_lt_of_le hx.2 h2⟩
  · refine h.drops.trans (List.monotone_filter_right _ (fun d hd => ?_))
    simp only [decide_eq_true_eq] at hd ⊢
    exact fun hx => hd ⟨hx.1, lt_of_lt_of_le hx.2 h1⟩

theorem Spec.InTurn.mono {σ α : Type} {give give' : Nat → σ → List α → Prop} {k : Nat} {ss : List σ} {out : List α}
    (h : InTurn give k ss out) (hg : ∀ k s part, s ∈ ss → give k s part → give' k s part) : InTurn give' k ss out := by
  induction h with
  | none k => exact .none k
  | enough ss => exact .enough ss
  | next h1 h2 ih => exact .next (hg _ _ _ (by simp) h1) (ih (fun k s part hs => hg k s part (by simp [hs])))

theorem Spec.ListGives.wider {score : DataPoint F → Option F} {t t' s s' : Int} {k : Nat} {l part : List (DataPoint F)}
    (h : ListGives score t t' k l part) (h1 : s ≤ t) (h2 : t' ≤ s') : ListGives score s s' k l part := by
  obtain ⟨live, e1, e2⟩ := h
  exact ⟨live, e1.wider h1 h2, e2⟩

theorem Spec.ManagerGives.wider {v : List F} {t t' s s' : Int} {k : Nat} {m : Manager F} {part : List (DataPoint F)}
    (h : ManagerGives v t t' k m part) (h1 : s ≤ t) (h2 : t' ≤ s') : ManagerGives v s s' k m part := by
  obtain ⟨near, cs, e1, e2, e3⟩ := h
  exact ⟨near, cs, e1, e2, e3.mono (fun k s part _ h => h.wider h1 h2)⟩

theorem Spec.NodeGives.wider {env : Env} {v : List F} {t t' s s' : Int} {ns : NS} {w : World F} {k : Nat} {a : Addr} {part : List (DataPoint F)}
    (h : NodeGives env v t t' ns w k a part) (h1 : s ≤ t) (h2 : t' ≤ s') : NodeGives env v s s' ns w k a part := by
  refine h.imp id (fun h => ?_)
  cases hg : w.get a ns with
  | none => simpa only [hg] using h
  | some m => simp only [hg] at h ⊢; exact h.wider h1 h2

namespace Manager

theorem wp_lookupLoop_harvest {tk : Nat → Int} (hm : MonoClock tk) (v : List F) (k : Nat) (drain : Bool) :
    ∀ (is : List Nat) (cs : List (Centroid F)) (cm : Manager F) (res : List (DataPoint F)) (p : Nat), cm.WF → is.Nodup →
      is.map (fun i => cm.centroids[i]?) = cs.map some → cm.knn = knnCos → res.length ≤ k →
      Go.wp (lookupLoop tk v k drain is cm res) (fun r p' => p ≤ p' ∧ ∃ out, r.1 = res ++ out ∧
        InTurn (ListGives (fun d => cosineSimilarity v d.vec) (tk p) (tk p')) (k - res.length) (cs.map (fun c => c.dps)) out) p
  | [], cs, cm, res, p, _, _, hcs, _, hl => by
    have : cs = [] := by cases cs with
      | nil => rfl
      | cons c cs => simp at hcs
    subst this
    simp only [lookupLoop, Go.wp_pure]
    exact ⟨Nat.le_refl _, [], by simp, .none _⟩
  | i :: is, [], cm, res, p, _, _, hcs, _, _ => by simp at hcs
  | i :: is, c :: cs, cm, res, p, hw, hnd, hcs, hk, hl => by
    unfold lookupLoop
    rw [Go.wp_ite]
    refine ⟨fun h => ?_, fun h => ?_⟩
    · rw [Go.wp_pure]
      refine ⟨Nat.le_refl _, [], by simp, ?_⟩
      rw [show k - res.length = 0 by omega]
      exact .enough _
    · rw [List.map_cons, List.map_cons, List.cons.injEq] at hcs
      obtain ⟨hc, hcs⟩ := hcs
      have hcm := List.mem_of_getElem? hc
      rw [List.nodup_cons] at hnd
      have hck : c.knn = fun t pl k => knnBrute t pl k false cosineSimilarity := by rw [(hw.search c hcm).1, hk]; rfl
      have hcok : SearchOK c.knn := by rw [(hw.search c hcm).1]; exact hw.good.1
      have hkk : ((k - res.length : Nat) : Int) = (k : Int) - res.length := by omega
      rw [Go.wp_bind]
      refine Go.wp_mono (wp_onCentroid (tk := tk) hw hc _ (R := fun c' res' _ p' => p ≤ p' ∧ ∃ part, res' = res ++ part ∧
        part.length ≤ k - res.length ∧ ListGives (fun d => cosineSimilarity v d.vec) (tk p) (tk p') (k - res.length) c.dps part) ?_) (fun r p1 h1 => ?_)
      · rw [Go.wp_bind, ← hkk]
        refine Go.wp_mono (Go.wp_and (Centroid.wp_knnLookup hm c hcok v (n := ((k - res.length : Nat) : Int)) (by omega) drain p)
          (Centroid.callOK_knnLookup hm c hcok (hw.dim c hcm).2 v (k := ((k - res.length : Nat) : Int)) (by omega) drain p))
          (fun q p1 hq => ?_)
        obtain ⟨hq, hok, _⟩ := hq
        have key : q.1.length ≤ k - res.length ∧
            ListGives (fun d => cosineSimilarity v d.vec) (tk p) (tk p1) (k - res.length) c.dps q.1 := by
          rw [hck] at hq
          cases drain with
          | true =>
            rw [if_pos rfl] at hq
            obtain ⟨surv, h1, h2, h3, h4, h5⟩ := Centroid.DrainEffect.best hq
            exact ⟨by omega, surv, h1, _, h2, h4, h5⟩
          | false =>
            rw [if_neg (by simp)] at hq
            obtain ⟨rest, h1, h2, h3⟩ := Centroid.LookupEffect.best hq
            obtain ⟨_, hp, _⟩ := Centroid.LookupEffect.facts hq
            exact ⟨by omega, _, hp.survivors, rest, h1, h2, h3⟩
        refine Go.wp_mono (wp_lookupTake tk k drain q.1 res q.2 p1 (by omega)) (fun s p2 hs => ?_)
        obtain ⟨rfl, rfl⟩ := hs
        exact ⟨_, hok, hok.le, q.1, rfl, key.1, key.2⟩
      · obtain ⟨out, c', e1, e2, e3, e4, part, e5, e6, e7⟩ := h1
        have hw1 := e1.wf
        rw [e2] at hw1 ⊢
        rw [e5]
        have hlen : (res ++ part).length = res.length + part.length := List.length_append
        refine Go.wp_mono (wp_lookupLoop_harvest hm v k drain is cs _ (res ++ part) p1 hw1 hnd.2 ?_ hk (by omega)) (fun s p2 hs => ?_)
        · rw [← hcs]
          refine List.map_congr_left (fun j hj => ?_)
          have hne : i ≠ j := fun h => hnd.1 (h ▸ hj)
          rw [upd_centroids, List.getElem?_set_ne hne]
        · obtain ⟨f1, out', f2, f3⟩ := hs
          refine ⟨by omega, part ++ out', by rw [f2, List.append_assoc], ?_⟩
          rw [hlen, ← Nat.sub_sub] at f3
          exact .next (e7.wider (Int.le_refl _) (hm _ _ f1)) (f3.mono (fun k s part _ h => h.wider (hm _ _ e4) (Int.le_refl _)))

end Manager

theorem exists_getElems {α : Type} {l : List α} : ∀ {is : List Nat}, (∀ i ∈ is, i < l.length) → ∃ cs : List α, is.map (fun i => l[i]?) = cs.map some
  | [], _ => ⟨[], rfl⟩
  | i :: is, h => by
    obtain ⟨cs, hcs⟩ := exists_getElems (fun j hj => h j (by simp [hj]) : ∀ j ∈ is, j < l.length)
    exact ⟨l[i]'(h i (by simp)) :: cs, by simp [hcs, List.getElem?_eq_getElem (h i (by simp))]⟩

theorem Manager.wp_knnLookup_harvest {tk : Nat → Int} (hm : MonoClock tk) {cm : Manager F} (hw : cm.WF) (hs : cm.knn = knnCos) (v : List F) (k : Nat)
    (drain : Bool) (p : Nat) :
    Go.wp (cm.knnLookup tk v k drain) (fun r p' => p ≤ p' ∧ ManagerGives v (tk p) (tk p') k cm r.1) p := by
  obtain ⟨near, h1, h2⟩ := knnBrute_kbest v cosineSimilarity false k (cm.centroids.map (fun c => c.vec))
  obtain ⟨cs, hcs⟩ := exists_getElems (l := cm.centroids) (is := near) (by
    intro i hi
    obtain ⟨s, w, hw, _⟩ := h2.valid i hi
    simpa using (List.getElem?_eq_some_iff.1 hw).1)
  unfold Manager.knnLookup
  simp only [Go.wp_bind, Go.wp_checkMake, Go.wp_lift, Manager.centroidVecs]
  refine ⟨by omega, near, by rw [hs]; exact h1, ?_⟩
  refine Go.wp_mono (wp_lookupLoop_harvest hm v k drain near cs cm [] p hw h2.nodup hcs hs (by simp)) (fun r p' hr => ?_)
  obtain ⟨e1, out, e2, e3⟩ := hr
  rw [List.nil_append] at e2
  subst e2
  exact ⟨e1, near, cs, h2, hcs, e3⟩

/-- C106, a manager with the search the service uses: `KNNLookup(v,k,drain)` for k ≥ 0 answers with the best datapoints of the nearest centroid, then
with those of the next one, until there are `k`. Datapoints may expire at any moment of the call. -/
theorem C106_lookup {tk : Nat → Int} (hm : MonoClock tk) {cm : Manager F} (hc : ManagerOK cm) (hs : cm.knn = knnCos) (v : List F) (k : Nat)
    (drain : Bool) (p : Nat) :
    ∃ out cm' p', cm.knnLookup tk v k drain p = .ok ((out, cm'), p') ∧ ManagerGives v (tk p) (tk p') k cm out := by
  obtain ⟨r, p', h0, h1⟩ := Go.wp_iff.1 (Manager.wp_knnLookup_harvest hm hc.wf hs v k drain p)
  exact ⟨r.1, r.2, p', h0, h1.2⟩

/-! ### Nodes -/

theorem wp_server_harvest {env : Env} (hm : MonoClock env.tk) {D : NS → Nat} {w : World F} (hw : WorldOK D w) (a : Addr) (ns : NS) (v : List F)
    (k : Nat) (drain : Bool) (p : Nat) :
    Go.wp ((Server.knnLookup env a ns v k drain).run w) (fun r p' => p ≤ p' ∧ NodeGives env v (env.tk p) (env.tk p') ns w k a (r.1.getD [])) p := by
  unfold Server.knnLookup
  cases hg : w.get a ns with
  | none =>
    rw [run_access_none ((get_eq_none_iff hw).1 hg), Go.wp_pure]
    exact ⟨Nat.le_refl _, .inr (by simp only [hg]; rfl)⟩
  | some m =>
    obtain ⟨i, hl', hi⟩ := lookup_of_get hw hg
    have hok := hw.mok hi
    rw [run_access_some hl' hi, Go.wp_bind]
    refine Go.wp_mono (Manager.wp_knnLookup_harvest hm hok.wf hok.knn v k drain p) (fun r p' hr => ?_)
    rw [Go.wp_pure]
    exact ⟨hr.1, .inr (by simp only [hg]; exact hr.2)⟩

theorem wp_client_harvest {env : Env} (hm : MonoClock env.tk) {D : NS → Nat} {w : World F} (hw : WorldOK D w) (a : Addr)
    (ns : NS) (v : List F) (k : Nat) (drain : Bool) (p : Nat) :
    Go.wp ((Client.knnLookup env a ns v k drain).run w) (fun r p' => p ≤ p' ∧ NodeGives env v (env.tk p) (env.tk p') ns w k a r.1) p := by
  unfold Client.knnLookup Client.call
  simp only [run_bind, Go.wp_bind, run_loc, Go.wp_checkMake]
  refine ⟨by omega, ?_⟩
  rw [Go.wp_pure]
  refine wp_sent ?_
  rw [Go.wp_pure]
  cases hup : env.up p a with
  | false =>
    simp only [Bool.false_eq_true, if_false, run_pure, Go.wp_pure, Option.getD_none]
    exact ⟨by omega, .inl ⟨rfl, p, .inl hup⟩⟩
  | true =>
    simp only [if_true, run_bind, Go.wp_bind]
    refine Go.wp_mono (wp_server_harvest hm hw a ns v k drain (p + 1)) (fun r p1 hr => ?_)
    obtain ⟨h1, h2⟩ := hr
    rw [run_loc, Go.wp_bind]
    refine wp_arrived ?_
    rw [Go.wp_pure]
    cases hb : env.back p1 a with
    | false =>
      simp only [Bool.false_eq_true, if_false, run_pure, Go.wp_pure, Option.getD_none]
      exact ⟨by omega, .inl ⟨rfl, p1, .inr hb⟩⟩
    | true =>
      simp only [if_true, run_pure, Go.wp_pure]
      exact ⟨by omega, h2.wider (hm _ _ (by omega)) (hm _ _ (by omega))⟩

theorem wp_getFrom_harvest {env : Env} (hm : MonoClock env.tk) {D : NS → Nat} (ns : NS) (v : List F) (n : Nat) (drain : Bool) :
    ∀ (as : List Addr) (w : World F) (res : List (DataPoint F)) (p : Nat), WorldOK D w → as.Nodup → res.length ≤ n →
      Go.wp ((Dps.getFrom env ns v n drain as res).run w) (fun r p' => p ≤ p' ∧ ∃ out, r.1 = res ++ out ∧
        InTurn (NodeGives env v (env.tk p) (env.tk p') ns w) (n - res.length) as out) p
  | [], w, res, p, hw, _, _ => by
    unfold Dps.getFrom
    rw [run_pure, Go.wp_pure]
    exact ⟨Nat.le_refl _, [], by simp, .none _⟩
  | a :: as, w, res, p, hw, hnd, hl => by
    rw [List.nodup_cons] at hnd
    unfold Dps.getFrom
    rw [run_bind, Go.wp_bind, show (n : Int) - res.length = ((n - res.length : Nat) : Int) by omega]
    refine Go.wp_mono (Go.wp_and (wp_client_harvest hm hw a ns v (n - res.length) drain p)
      (wp_client_knn hm hw a ns v (k := ((n - res.length : Nat) : Int)) (by omega) drain p)) (fun r p1 h => ?_)
    obtain ⟨⟨h1, h2⟩, _, h3⟩ := h
    have hc := h3.count
    have hlen : (res ++ r.1).length = res.length + r.1.length := List.length_append
    by_cases hfull : (((res ++ r.1).length : Nat) : Int) ≥ n
    · rw [if_pos hfull, run_pure, Go.wp_pure]
      refine ⟨h1, r.1, rfl, ?_⟩
      have := InTurn.next (give := NodeGives env v (env.tk p) (env.tk p1) ns w) h2 (out := []) (ss := as) (by
        rw [show n - res.length - r.1.length = 0 by omega]; exact .enough _)
      rwa [List.append_nil] at this
    · rw [if_neg hfull]
      refine Go.wp_mono (wp_getFrom_harvest hm ns v n drain as r.2 (res ++ r.1) p1 h3.ok hnd.2 (by omega)) (fun q p2 hq => ?_)
      obtain ⟨f1, out, f2, f3⟩ := hq
      refine ⟨by omega, r.1 ++ out, by rw [f2, List.append_assoc], ?_⟩
      rw [hlen, ← Nat.sub_sub] at f3
      refine .next (h2.wider (Int.le_refl _) (hm _ _ f1)) (f3.mono (fun k b part hb h => ?_))
      have hne : r.2.get b ns = w.get b ns := h3.others b ns (.inl (by rintro rfl; exact hnd.1 hb))
      have h := h.wider (hm _ _ h1) (Int.le_refl (env.tk p2))
      unfold NodeGives at h ⊢
      rwa [hne] at h

theorem wp_get_harvest {env : Env} (hm : MonoClock env.tk) {D : NS → Nat} {w : World F} (hw : WorldOK D w) (ns : NS) (v : List F) (n : Nat) (drain : Bool)
    {as : List Addr} (hnd : as.Nodup) (p : Nat) :
    Go.wp ((Dps.getDataPoints env as ns v n drain).run w) (fun r p' => p ≤ p' ∧
      InTurn (NodeGives env v (env.tk p) (env.tk p') ns w) n as r.1) p := by
  unfold Dps.getDataPoints
  simp only [run_bind, Go.wp_bind, run_loc, Go.wp_checkMake]
  refine ⟨by omega, ?_⟩
  rw [Go.wp_pure]
  refine Go.wp_mono (wp_getFrom_harvest hm ns v n drain as w [] p hw hnd (by simp)) (fun r p' h => ?_)
  obtain ⟨h1, out, h2, h3⟩ := h
  rw [List.nil_append] at h2
  subst h2
  exact ⟨h1, h3⟩

theorem bestFit_nodup {dist : List F → Option F} {asc : Bool} {answers : List (Addr × Option (List F))} {as addrs : List Addr}
    (h : BestFit dist asc answers as) (h1 : (answers.map (fun q => q.1)).Perm addrs) (hnd : addrs.Nodup) : as.Nodup := by
  obtain ⟨chosen, rfl, h2, _⟩ := h
  have h3 := h2.map (fun q => q.1)
  rw [List.map_map] at h3
  have h4 : (chosen.map (fun q => q.1)).Perm ((answers.filter (fun q => match q.2 with
      | some v => decide (v ≠ []) && isCandidate dist asc v
      | none => false)).map (fun q => q.1)) := (List.Perm.of_eq (by simp [Function.comp_def])).trans h3
  rw [h4.nodup_iff]
  exact (h1.nodup_iff.2 hnd).sublist (List.filter_sublist.map _)

/-- C106, `GetDataPointsFast`: the nodes are asked in turn, those with the most similar manager vectors first; each gives the best of what it has.
Messages may be lost and datapoints may expire at any moment; nobody else is at work. -/
theorem C106_getFast {env : Env} (he : EnvOK env) {D : NS → Nat} {w : World F} (hw : WorldOK D w) (ns : NS) (v : List F) (n : Nat)
    (drain : Bool) {addrs : List Addr} (hnd : addrs.Nodup) (p : Nat) :
    ∃ out w' p', (Dps.getDataPointsFast env knnCos addrs ns v n drain).run w p = .ok ((out, w'), p') ∧
      ∃ (answers : List (Addr × Option (List F))) (asked : List Addr), (answers.map (fun q => q.1)).Perm addrs ∧
        (∀ q ∈ answers, FastAnswer env w ns q) ∧ BestFit (cosineSimilarity v) false answers asked ∧
        InTurn (NodeGives env v (env.tk p) (env.tk p') ns w) n asked out := by
  have key : Go.wp ((Dps.getDataPointsFast env knnCos addrs ns v n drain).run w) (fun r p' =>
      ∃ (answers : List (Addr × Option (List F))) (asked : List Addr), (answers.map (fun q => q.1)).Perm addrs ∧
        (∀ q ∈ answers, FastAnswer env w ns q) ∧ BestFit (cosineSimilarity v) false answers asked ∧
        InTurn (NodeGives env v (env.tk p) (env.tk p') ns w) n asked r.1) p := by
    unfold Dps.getDataPointsFast
    rw [run_bind, Go.wp_bind]
    refine Go.wp_mono (wp_bestFast he hw knnCos_searchesBest addrs ns v p) (fun r p1 h => ?_)
    obtain ⟨h1, h2, answers, h3, h4, h5⟩ := h
    rw [h2]
    refine Go.wp_mono (wp_get_harvest he.clock hw ns v n drain (bestFit_nodup h5 h3 hnd) p1) (fun q p2 hq => ?_)
    exact ⟨answers, r.1, h3, h4, h5, hq.2.mono (fun k a part _ h => h.wider (he.clock _ _ h1) (Int.le_refl _))⟩
  obtain ⟨r, p', h0, h1⟩ := Go.wp_iff.1 key
  exact ⟨r.1, r.2, p', h0, h1⟩

/-- C106, `GetDataPointsAccurate`: the same with the vectors of the nodes' nearest centroids. -/
theorem C106_getAccurate {env : Env} (he : EnvOK env) {D : NS → Nat} {w : World F} (hw : WorldOK D w) (ns : NS) (v : List F) (n : Nat)
    (drain : Bool) {addrs : List Addr} (hnd : addrs.Nodup) (p : Nat) :
    ∃ out w' p', (Dps.getDataPointsAccurate env knnCos addrs ns v n drain).run w p = .ok ((out, w'), p') ∧
      ∃ (answers : List (Addr × Option (List F))) (asked : List Addr), (answers.map (fun q => q.1)).Perm addrs ∧
        (∀ q ∈ answers, AccurateAnswer env w ns v q) ∧ BestFit (cosineSimilarity v) false answers asked ∧
        InTurn (NodeGives env v (env.tk p) (env.tk p') ns w) n asked out := by
  have key : Go.wp ((Dps.getDataPointsAccurate env knnCos addrs ns v n drain).run w) (fun r p' =>
      ∃ (answers : List (Addr × Option (List F))) (asked : List Addr), (answers.map (fun q => q.1)).Perm addrs ∧
        (∀ q ∈ answers, AccurateAnswer env w ns v q) ∧ BestFit (cosineSimilarity v) false answers asked ∧
        InTurn (NodeGives env v (env.tk p) (env.tk p') ns w) n asked r.1) p := by
    unfold Dps.getDataPointsAccurate
    rw [run_bind, Go.wp_bind]
    refine Go.wp_mono (wp_bestAccurate he hw knnCos_searchesBest addrs ns v p) (fun r p1 h => ?_)
    obtain ⟨h1, h2, answers, h3, h4, h5⟩ := h
    rw [h2]
    refine Go.wp_mono (wp_get_harvest he.clock hw ns v n drain (bestFit_nodup h5 h3 hnd) p1) (fun q p2 hq => ?_)
    exact ⟨answers, r.1, h3, h4, h5, hq.2.mono (fun k a part _ h => h.wider (he.clock _ _ h1) (Int.le_refl _))⟩
  obtain ⟨r, p', h0, h1⟩ := Go.wp_iff.1 key
  exact ⟨r.1, r.2, p', h0, h1⟩

/-! ### One node with one centroid: an exact search -/

theorem InTurn.of_one {σ α : Type} {give : Nat → σ → List α → Prop} {k : Nat} {s : σ} {out : List α} (hk : 0 < k) (h : InTurn give k [s] out) :
    give k s out := by
  generalize hss : [s] = ss at h
  cases h with
  | none => cases hss
  | enough => omega
  | next h1 h2 =>
    rename_i part rest
    cases hss
    have : rest = [] := by
      generalize hj : k - part.length = j at h2
      generalize hs : ([] : List σ) = ss at h2
      cases h2 with
      | none => rfl
      | enough => rfl
      | next => cases hs
    rwa [this, List.append_nil]

theorem managerGives_one {v : List F} {tk : Nat → Int} {p p' : Nat} {n : Nat} {m : Manager F} {c : Centroid F} {part : List (DataPoint F)}
    (h : ManagerGives v (tk p) (tk p') n m part) (hc : m.centroids = [c]) (hs : sees v c.vec = true) (hl : ∀ d ∈ c.dps, ∀ q, ¬ Dead (tk q) d) :
    TakesBest (fun d => cosineSimilarity v d.vec) false n c.dps part := by
  obtain ⟨near, cs, e1, e2, e3⟩ := h
  rw [hc] at e1 e2
  have hcand : ([c].map (fun c => c.vec)).countP (isCandidate (cosineSimilarity v) false) = 1 := by
    rw [List.map_singleton, List.countP_singleton, if_pos (show isCandidate (cosineSimilarity v) false c.vec = true from hs)]
  have hlen := e1.length
  rw [hcand] at hlen
  rcases Nat.eq_zero_or_pos n with rfl | hn
  · have : part = [] := by
      have : near = [] := List.eq_nil_of_length_eq_zero (by omega)
      subst this
      have : cs = [] := by cases cs with
        | nil => rfl
        | cons c cs => simp at e2
      subst this
      cases e3 <;> rfl
    subst this
    exact ⟨c.dps, by simp, ⟨by simp, by simp, by simp⟩, by simp⟩
  · obtain ⟨i, rfl⟩ := List.length_eq_one_iff.1 (show near.length = 1 by omega)
    obtain ⟨s, u, hu, _⟩ := e1.valid i (by simp)
    have hi : i = 0 := by
      have := (List.getElem?_eq_some_iff.1 hu).1
      simpa using this
    subst hi
    have : cs = [c] := by
      cases cs with
      | nil => simp at e2
      | cons x cs => cases cs with
        | nil => simpa [eq_comm] using e2
        | cons y cs => simp at e2
    subst this
    obtain ⟨live, g3, g4⟩ := InTurn.of_one hn e3
    have : live = c.dps := by
      have f1 := g3.keeps
      have f2 := g3.drops
      rw [List.filter_eq_self.2 (fun d hd => by simpa using hl d hd _)] at f1 f2
      exact f2.antisymm f1
    rwa [this] at g4

/-- A node that is asked first and alone. -/
theorem inTurn_node {env : Env} {v : List F} {t t' : Int} {ns : NS} {w : World F} {n : Nat} {a : Addr} {m : Manager F} {out : List (DataPoint F)}
    (hn : 0 < n) (hr : Reachable env a) (hg : w.get a ns = some m) (h : InTurn (NodeGives env v t t' ns w) n [a] out) : ManagerGives v t t' n m out := by
  rcases InTurn.of_one hn h with ⟨_, q, hq | hq⟩ | h
  · rw [hr.1 q] at hq; cases hq
  · rw [hr.2 q] at hq; cases hq
  · simpa only [hg] using h

theorem takesBest_zero {α : Type} {score : α → Option F} {asc : Bool} (l : List α) : TakesBest score asc 0 l [] :=
  ⟨l, by simp, ⟨by simp, by simp, by simp⟩, by simp⟩

theorem InTurn.of_zero {σ α : Type} {give : Nat → σ → List α → Prop} {ss : List σ} {out : List α} (hg : ∀ s part, give 0 s part → part = [])
    (h : InTurn give 0 ss out) : out = [] := by
  generalize hk : 0 = k at h
  induction h with
  | none => rfl
  | enough => rfl
  | next h1 h2 ih =>
    subst hk
    rw [hg _ _ h1, ih (by simp)]
    rfl

theorem nodeGives_zero {env : Env} {v : List F} {t t' : Int} {ns : NS} {w : World F} {a : Addr} {part : List (DataPoint F)}
    (h : NodeGives env v t t' ns w 0 a part) : part = [] := by
  rcases h with h | h
  · exact h.1
  · cases hg : w.get a ns with
    | none => simpa only [hg] using h
    | some m =>
      simp only [hg] at h
      obtain ⟨near, cs, e1, e2, e3⟩ := h
      refine InTurn.of_zero (fun s part hp => ?_) e3
      obtain ⟨live, _, rest, _, _, hp⟩ := hp
      exact List.eq_nil_of_length_eq_zero (by omega)

/-- C106, the HTTP query: a negative `n` aside, the answer is harvested as described. -/
theorem C106_query {env : Env} (he : EnvOK env) {D : NS → Nat} {w : World F} (hw : WorldOK D w) (o : Api.QueryOpts F) {n : Nat} (hn : o.n = n)
    {addrs : List Addr} (hnd : addrs.Nodup) (p : Nat) :
    ∃ (out : List (DataPoint F)) (w' : World F) (p' : Nat), (Api.queryDataPoint env addrs (some o)).run w p =
        .ok (((200, out.map (fun d => ⟨d.vec, d.payload, d.expires, d.expireEnabled⟩)), w'), p') ∧
      ∃ (answers : List (Addr × Option (List F))) (asked : List Addr), (answers.map (fun q => q.1)).Perm addrs ∧
        (∀ q ∈ answers, if o.accurate then AccurateAnswer env w o.ns o.vec q else FastAnswer env w o.ns q) ∧
        BestFit (cosineSimilarity o.vec) false answers asked ∧
        InTurn (NodeGives env o.vec (env.tk p) (env.tk p') o.ns w) n asked out := by
  cases ha : o.accurate with
  | true =>
    obtain ⟨out, w', p', h0, h1⟩ := C106_getAccurate he hw o.ns o.vec n o.drain hnd p
    refine ⟨out, w', p', ?_, by simpa using h1⟩
    unfold Api.queryDataPoint
    simp only [ha, if_true, hn]
    exact (run_bind_ok h0).trans (by rw [run_pure]; rfl)
  | false =>
    obtain ⟨out, w', p', h0, h1⟩ := C106_getFast he hw o.ns o.vec n o.drain hnd p
    refine ⟨out, w', p', ?_, by simpa using h1⟩
    unfold Api.queryDataPoint
    simp only [ha, Bool.false_eq_true, if_false, hn]
    exact (run_bind_ok h0).trans (by rw [run_pure]; rfl)

/-- C106: with one node that has one centroid, the search is exact: the answer is the `n` most similar datapoints, most similar first. -/
theorem C106_exact {env : Env} (he : EnvOK env) {D : NS → Nat} {w : World F} (hw : WorldOK D w) (o : Api.QueryOpts F) (hv : o.vec ≠ []) {n : Nat}
    (hn : o.n = n) {a : Addr} (hr : Reachable env a) {m : Manager F} (hg : w.get a o.ns = some m) {c : Centroid F} (hc : m.centroids = [c])
    (hs : sees o.vec c.vec = true) (hs' : o.accurate = false → sees o.vec m.vec = true) (hl : ∀ d ∈ c.dps, ∀ q, ¬ Dead (env.tk q) d) (p : Nat) :
    ∃ (out : List (DataPoint F)) (w' : World F) (p' : Nat), (Api.queryDataPoint env [a] (some o)).run w p =
        .ok (((200, out.map (fun d => ⟨d.vec, d.payload, d.expires, d.expireEnabled⟩)), w'), p') ∧
      TakesBest (fun d => cosineSimilarity o.vec d.vec) false n (storedAt w [a] o.ns) out := by
  obtain ⟨out, w', p', h0, answers, asked, h1, h2, h3, h4⟩ := C106_query he hw o hn (addrs := [a]) (by simp) p
  refine ⟨out, w', p', h0, ?_⟩
  have hst : storedAt w [a] o.ns = c.dps := by rw [storedAt_one hg]; simp [stored, hc]
  rw [hst]
  rcases Nat.eq_zero_or_pos n with rfl | hpos
  · rw [InTurn.of_zero (fun s part => nodeGives_zero) h4]
    exact takesBest_zero _
  · have hask : asked.Perm ([a].filter (fun _ => true)) := bestFit_asked hv h1 h3 (fun q hq => by
      have hqa : q.1 = a := by simpa using h1.subset (List.mem_map.2 ⟨q, hq, rfl⟩)
      have h2 := h2 q hq
      cases hacc : o.accurate with
      | true =>
        rw [hacc, if_pos rfl] at h2
        obtain ⟨val, e1, e2⟩ := h2
        rw [hqa] at e1 e2
        rw [heard_eq hr e2]
        rcases e1 with ⟨e1, _⟩ | ⟨m', u, e1, rfl, e3⟩
        · rw [hg] at e1; cases e1
        · rw [hg] at e1; cases e1
          rcases e3 with ⟨_, e3⟩ | ⟨c', hc', rfl, e3, _⟩
          · have := e3 c (by simp [hc])
            rw [show isCandidate (cosineSimilarity o.vec) false c.vec = true from hs] at this
            cases this
          · exact e3.symm
      | false =>
        rw [hacc, if_neg (by simp)] at h2
        unfold FastAnswer at h2
        rw [hqa] at h2
        rw [heard_eq hr h2, hg]
        exact (hs' hacc).symm)
    have hask : asked = [a] := by simpa using hask
    rw [hask] at h4
    exact managerGives_one (inTurn_node hpos hr hg h4) hc hs hl

open ServerExample

/-- C106: the theorem for two nodes, a fast query that drains. -/
example : ∃ (out : List (DataPoint F64)) (w' : World F64) (p' : Nat), (Api.queryDataPoint env [1, 2, 3] (some ⟨7, false, [F64.ofInt 1, .ofInt 2], 2, true⟩)).run two 0 =
      .ok (((200, out.map (fun d => ⟨d.vec, d.payload, d.expires, d.expireEnabled⟩)), w'), p') ∧
    ∃ (answers : List (Addr × Option (List F64))) (asked : List Addr), (answers.map (fun q => q.1)).Perm [1, 2, 3] ∧
      (∀ q ∈ answers, if false then AccurateAnswer env two 7 [F64.ofInt 1, .ofInt 2] q else FastAnswer env two 7 q) ∧
      BestFit (cosineSimilarity [F64.ofInt 1, .ofInt 2]) false answers asked ∧
      InTurn (NodeGives env [F64.ofInt 1, .ofInt 2] (env.tk 0) (env.tk p') 7 two) 2 asked out :=
  C106_query env_ok two_ok ⟨7, false, [F64.ofInt 1, .ofInt 2], 2, true⟩ rfl (by decide) 0

/-- C106: what this query answers: node 2 comes first, the rest is from node 1. -/
example : ∃ r p', (Api.queryDataPoint env [1, 2, 3] (some ⟨7, false, [F64.ofInt 1, .ofInt 2], 2, true⟩)).run two 0 = .ok (r, p') ∧
    (r.1.1, r.1.2.map (fun d => d.vec), at12 r.2) = (200, [(dp 0 1).vec, (dp 1 0).vec], [dp 2 0], []) :=
  exists_of_run (f := fun r : (Nat × List (Api.DP F64)) × World F64 => (r.1.1, r.1.2.map (fun d => d.vec), at12 r.2)) (by decide +kernel)

/-- C106: an exact search at node 1. -/
example : ∃ (out : List (DataPoint F64)) (w' : World F64) (p' : Nat), (Api.queryDataPoint env [1] (some ⟨7, true, [F64.ofInt 1, .ofInt 2], 1, false⟩)).run two 0 =
      .ok (((200, out.map (fun d => ⟨d.vec, d.payload, d.expires, d.expireEnabled⟩)), w'), p') ∧
    TakesBest (fun d => cosineSimilarity [F64.ofInt 1, .ofInt 2] d.vec) false 1 (storedAt two [1] 7) out :=
  C106_exact env_ok two_ok ⟨7, true, [F64.ofInt 1, .ofInt 2], 1, false⟩ (by simp) rfl ⟨fun _ => rfl, fun _ => rfl⟩ rfl rfl (by decide +kernel)
    (by simp) (by
      intro d hd q h
      have : ∀ d ∈ [dp 1 0, dp 2 0], d.expireEnabled = false := by decide +kernel
      simp [Dead, this d hd] at h) 0

/-- Two centroids; the datapoint (5,1) lies in the one with the vector (1,2). -/
def ServerExample.astray : World F64 := nodes2 (man [.ofInt 1, .ofInt 1] [cen [.ofInt 1, .ofInt 0] [dp 1 0], cen [.ofInt 1, .ofInt 2] [dp 5 1, dp 0 1]])
  (man [.ofInt 0, .ofInt 1] []) (man [.ofInt 3, .ofInt 4] [])

/-- C106: with several centroids the search is approximate: asked for what is nearest to (5,1), the query answers (1,0), from the nearest
centroid, although (5,1) itself is stored. -/
example : ∃ r p', (Api.queryDataPoint env [1] (some ⟨7, true, [F64.ofInt 5, .ofInt 1], 1, false⟩)).run astray 0 = .ok (r, p') ∧
    (r.1.1, r.1.2.map (fun d => d.vec)) = (200, [(dp 1 0).vec]) :=
  exists_of_run (f := fun r : (Nat × List (Api.DP F64)) × World F64 => (r.1.1, r.1.2.map (fun d => d.vec))) (by decide +kernel)

end Trypo
