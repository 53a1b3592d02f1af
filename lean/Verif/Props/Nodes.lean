import Verif.Model.Core
import Verif.Props.Steal
import Verif.Spec.Nodes
import Verif.Props.KNN

/-!
# Properties of core/nodes and of `shuffleAddrs`: C44, C47
-/

set_option linter.unusedSectionVars false
set_option linter.unusedVariables false

namespace Trypo
open GoFloat Spec

variable {F : Type} [GoFloat F] {α : Type}

/-! ### C47 -/

theorem set_set_perm {l : List α} {i j : Nat} {x y : α} (hi : l[i]? = some x) (hj : l[j]? = some y) :
    ((l.set i y).set j x).Perm l := by
  obtain ⟨hil, hix⟩ := List.getElem?_eq_some_iff.1 hi
  obtain ⟨hjl, hjy⟩ := List.getElem?_eq_some_iff.1 hj
  subst hix; subst hjy
  exact List.set_set_perm hil hjl

theorem wp_shuffleFrom {env : Env} (he : EnvOK env) {n : Nat} : ∀ (k i : Nat) (l : List α) (p : Nat), l.length = n → i + k ≤ n →
    Go.wp (Dps.shuffleFrom env n k i l) (fun r p' => r.Perm l ∧ p ≤ p') p
  | 0, i, l, p, hl, hk => by
    unfold Dps.shuffleFrom
    rw [Go.wp_pure]; exact ⟨.refl _, Nat.le_refl _⟩
  | k + 1, i, l, p, hl, hk => by
    unfold Dps.shuffleFrom Dps.swap
    simp only [Go.wp_bind]
    show Go.wp _ _ (p + 1)
    have hj := he.rand p n (by omega)
    simp only [Go.wp_idx, Go.wp_pure]
    have hi' : l[i]? = some (l[i]'(by omega)) := List.getElem?_eq_getElem _
    have hj' : l[env.rand p n]? = some (l[env.rand p n]'(by omega)) := List.getElem?_eq_getElem _
    refine ⟨_, hi', _, hj', ?_⟩
    refine Go.wp_mono (wp_shuffleFrom he k (i + 1) _ (p + 1) (by simp [hl]) (by omega)) (fun r p' hr => ?_)
    exact ⟨hr.1.trans (set_set_perm hi' hj'), by omega⟩

/-- C47. `shuffleAddrs` lists every address exactly as often as it was listed, for all random numbers. -/
theorem C47_shuffle {env : Env} (he : EnvOK env) (addrs : List Addr) (p : Nat) :
    ∃ r p', Dps.shuffleAddrs env addrs p = .ok (r, p') ∧ r.Perm addrs := by
  obtain ⟨r, p', h1, h2⟩ := Go.wp_iff.1 (wp_shuffleFrom he addrs.length 0 addrs p rfl (by omega))
  exact ⟨r, p', h1, h2.1⟩

/-- C47: the random numbers 2, 0, 1. -/
example : ∃ r p', Dps.shuffleAddrs { ServerExample.env with rand := fun p n => (p + 2) % n } [10, 20, 30] 0 = .ok (r, p') ∧
    r = [20, 10, 30] := exists_of_run (f := id) (by decide)

/-- Every element of a list may end up anywhere. -/
example : ∃ r p', Dps.shuffleAddrs { ServerExample.env with rand := fun _ n => n - 1 } [10, 20, 30] 0 = .ok (r, p') ∧
    r = [30, 10, 20] := exists_of_run (f := id) (by decide)

/-! ### C44 -/

theorem wp_each_same {β : Type} {f : β → Prog F α} {R : β → α → Prop} {w : World F} : ∀ (l : List β) (p : Nat),
    (∀ x ∈ l, ∀ p, Go.wp ((f x).run w) (fun r p' => p ≤ p' ∧ r.2 = w ∧ R x r.1) p) →
    Go.wp ((Prog.each f l).run w) (fun r p' => p ≤ p' ∧ r.2 = w ∧ List.Forall₂ R l r.1) p
  | [], p, _ => by
    unfold Prog.each
    rw [run_pure, Go.wp_pure]; exact ⟨Nat.le_refl _, rfl, .nil⟩
  | x :: xs, p, h => by
    unfold Prog.each
    rw [run_bind, Go.wp_bind]
    refine Go.wp_mono (h x (by simp) p) (fun r p1 hr => ?_)
    obtain ⟨h1, h2, h3⟩ := hr
    rw [run_bind, Go.wp_bind, h2]
    refine Go.wp_mono (wp_each_same xs p1 (fun y hy => h y (by simp [hy]))) (fun r2 p2 hr2 => ?_)
    obtain ⟨h4, h5, h6⟩ := hr2
    rw [run_pure, Go.wp_pure]
    exact ⟨Nat.le_trans h1 h4, h5, .cons h3 h6⟩

theorem filterMap_getElem? (l : List α) : (List.range l.length).filterMap (fun i => l[i]?) = l := by
  induction l with
  | nil => rfl
  | cons x l ih =>
    rw [List.length_cons, List.range_succ_eq_map, List.filterMap_cons, List.filterMap_map]
    simp only [List.getElem?_cons_zero]
    congr 1

/-- Reading the elements a correct search found. -/
theorem kbest_all {dist : List F → Option F} {asc : Bool} {rsp : List (Addr × List F)} {res : List Nat}
    (h : KBest dist asc (rsp.map (fun q => q.2)) rsp.length res) :
    ∃ chosen : List (Addr × List F), List.Forall₂ (fun i q => rsp[i]? = some q) res chosen ∧
      chosen.Perm (rsp.filter (fun q => isCandidate dist asc q.2)) ∧
      chosen.Pairwise (fun q r => ∀ s t, dist q.2 = some s → dist r.2 = some t → ¬ Better asc t s) := by
  have hv : ∀ i ∈ res, ∃ q s, rsp[i]? = some q ∧ dist q.2 = some s ∧ Comparable asc s := by
    intro i hi
    obtain ⟨s, v, h1, h2, h3⟩ := h.valid i hi
    rw [List.getElem?_map] at h1
    cases hq : rsp[i]? with
    | none => rw [hq] at h1; simp at h1
    | some q => rw [hq] at h1; cases h1; exact ⟨q, s, rfl, h2, h3⟩
  have hex : ∀ (l : List Nat), (∀ i ∈ l, ∃ q s, rsp[i]? = some q ∧ dist q.2 = some s ∧ Comparable asc s) →
      ∃ chosen : List (Addr × List F), List.Forall₂ (fun i q => rsp[i]? = some q) l chosen ∧ chosen = l.filterMap (fun i => rsp[i]?) := by
    intro l hl
    induction l with
    | nil => exact ⟨[], .nil, rfl⟩
    | cons i l ih =>
      obtain ⟨q, s, h1, _⟩ := hl i (by simp)
      obtain ⟨ch, h2, h3⟩ := ih (fun j hj => hl j (by simp [hj]))
      exact ⟨q :: ch, .cons h1 h2, by rw [List.filterMap_cons, h1, h3]⟩
  obtain ⟨chosen, c1, c2⟩ := hex res hv
  refine ⟨chosen, c1, ?_, ?_⟩
  · let P : Nat → Bool := fun i => (rsp[i]?).any (fun q => isCandidate dist asc q.2)
    have e : ((List.range rsp.length).filter P).filterMap (fun i => rsp[i]?) = rsp.filter (fun q => isCandidate dist asc q.2) := by
      conv_rhs => rw [← filterMap_getElem? rsp]
      rw [List.filterMap_filter, List.filter_filterMap]
      refine List.filterMap_congr (fun i _ => ?_)
      have : ∀ (b : Bool) (x : Option (Addr × List F)), b = x.any (fun q => isCandidate dist asc q.2) →
          (if b = true then x else none) = x.filter (fun q => isCandidate dist asc q.2) := by
        rintro b x rfl
        cases x with
        | none => simp
        | some q => cases hc : isCandidate dist asc q.2 <;> simp [hc, Option.filter]
      exact this _ _ rfl
    have hsub : res.Perm ((List.range rsp.length).filter P) := by
      refine List.Subperm.perm_of_length_le (List.subperm_of_subset h.nodup (fun i hi => ?_)) ?_
      · obtain ⟨q, s, h1, h2, h3⟩ := hv i hi
        rw [List.mem_filter]
        refine ⟨List.mem_range.2 (List.getElem?_eq_some_iff.1 h1).1, ?_⟩
        simp only [P, h1, Option.any_some, isCandidate, h2, h3, decide_true]
      · have l1 : ((List.range rsp.length).filter P).length = (((List.range rsp.length).filter P).filterMap (fun i => rsp[i]?)).length := by
          rw [List.length_filterMap_eq_countP, List.countP_eq_length.2]
          intro i hi
          have := List.mem_range.1 (List.mem_filter.1 hi).1
          simp [this]
        have hl := h.length
        rw [l1, e, ← List.countP_eq_length_filter]
        rw [List.countP_map] at hl
        have h2 := List.countP_le_length (p := isCandidate dist asc ∘ fun q : Addr × List F => q.2) (l := rsp)
        rw [Nat.min_eq_right h2] at hl
        rw [hl]; exact Nat.le_refl _
    rw [c2, ← e]
    exact hsub.filterMap _
  · have hs := h.sorted
    clear c2 hex h
    induction c1 with
    | nil => exact .nil
    | @cons i q is qs h1 h2 ih =>
      rw [List.pairwise_cons] at hs ⊢
      refine ⟨fun r hr s t hs1 ht1 => ?_, ih (fun j hj => hv j (by simp [hj])) hs.2⟩
      obtain ⟨j, hj, hjr⟩ : ∃ j ∈ is, rsp[j]? = some r := by
        clear ih hs hv
        induction h2 with
        | nil => simp at hr
        | cons a b ih2 =>
          rcases List.mem_cons.1 hr with rfl | hr
          · exact ⟨_, by simp, a⟩
          · obtain ⟨j, hj, hjr⟩ := ih2 hr
            exact ⟨j, by simp [hj], hjr⟩
      have hc : ∀ k u x, k ∈ i :: is → rsp[k]? = some u → dist u.2 = some x → HasScore dist asc (rsp.map (fun q => q.2)) k x := by
        intro k u x hk hu hx
        obtain ⟨q', s', e1, e2, e3⟩ := hv k hk
        rw [hu] at e1; cases e1
        rw [hx] at e2; cases e2
        exact ⟨u.2, by rw [List.getElem?_map, hu]; rfl, hx, e3⟩
      exact hs.1 j hj s t (hc i q s (by simp) h1 hs1) (hc j r t (by simp [hj]) hjr ht1)

variable [LawfulCmp F]

theorem put_same {w : World F} {i : Nat} {ns : NS} {m : Manager F} (hi : w.heap[i]? = some (ns, m)) : w.put i ns m = w := by
  unfold World.put
  obtain ⟨hlt, hi'⟩ := List.getElem?_eq_some_iff.1 hi
  rw [← hi', List.set_getElem_self]

theorem wp_call_same {β : Type} {env : Env} {a : Addr} {body : Prog F (Option β)} {w : World F} {R : Option β → Prop}
    (h : ∀ p, Go.wp (body.run w) (fun r p' => p ≤ p' ∧ r.2 = w ∧ R r.1) p) (hR : ∃ val, R val) (p : Nat) :
    Go.wp ((Client.call env a body).run w) (fun r p' => p ≤ p' ∧ r.2 = w ∧ ∃ val, R val ∧ Heard env a val r.1) p := by
  unfold Client.call
  rw [run_bind, Go.wp_bind, run_loc, Go.wp_bind]
  refine wp_sent ?_
  rw [Go.wp_pure]
  simp only
  cases hup : env.up p a with
  | false =>
    obtain ⟨val, hv⟩ := hR
    simp only [Bool.false_eq_true, if_false, run_pure, Go.wp_pure]
    exact ⟨by omega, trivial, val, hv, .inr ⟨rfl, p, .inl hup⟩⟩
  | true =>
    simp only [if_true]
    rw [run_bind, Go.wp_bind]
    refine Go.wp_mono (h (p + 1)) (fun r p1 hr => ?_)
    obtain ⟨h1, h2, h3⟩ := hr
    rw [run_bind, Go.wp_bind, run_loc, Go.wp_bind]
    refine wp_arrived ?_
    rw [Go.wp_pure]
    cases hb : env.back p1 a with
    | false =>
      simp only [Bool.false_eq_true, if_false, run_pure, Go.wp_pure]
      exact ⟨by omega, h2, r.1, h3, .inr ⟨rfl, p1, .inr hb⟩⟩
    | true =>
      simp only [if_true, run_pure, Go.wp_pure]
      exact ⟨by omega, h2, r.1, h3, .inl rfl⟩

theorem wp_vec_heard {env : Env} {D : NS → Nat} {w : World F} (hw : WorldOK D w) (a : Addr) (ns : NS) (p : Nat) :
    Go.wp ((Client.vec env a ns : Prog F _).run w) (fun r p' => p ≤ p' ∧ r.2 = w ∧
      Heard env a ((w.get a ns).map (fun m => m.vec)) r.1) p := by
  refine Go.wp_mono (wp_call_same (R := fun r => r = (w.get a ns).map (fun m => m.vec)) (fun q => ?_) ⟨_, rfl⟩ p)
    (fun r p' hr => ⟨hr.1, hr.2.1, ?_⟩)
  · unfold Server.vec
    cases hg : w.get a ns with
    | none =>
      rw [run_access_none ((get_eq_none_iff hw).1 hg), Go.wp_pure]
      exact ⟨Nat.le_refl _, rfl, rfl⟩
    | some m =>
      obtain ⟨i, hl, hi⟩ := lookup_of_get hw hg
      rw [run_access_some hl hi, pure_bind, Go.wp_pure]
      exact ⟨Nat.le_refl _, put_same hi, rfl⟩
  · obtain ⟨val, rfl, h⟩ := hr.2.2
    exact h

theorem wp_nearestVec_heard {env : Env} {D : NS → Nat} {w : World F} (hw : WorldOK D w) (a : Addr) (ns : NS) (v : List F) (p : Nat) :
    Go.wp ((Client.nearestCentroidVec env a ns v : Prog F _).run w) (fun r p' => p ≤ p' ∧ r.2 = w ∧
      ∃ val, (w.get a ns = none ∧ val = none ∨ ∃ m u, w.get a ns = some m ∧ val = some u ∧ NearestVec v m u) ∧ Heard env a val r.1) p := by
  have body : ∀ q, Go.wp ((Server.nearestCentroidVec a ns v : Prog F _).run w) (fun r p' => q ≤ p' ∧ r.2 = w ∧
      (w.get a ns = none ∧ r.1 = none ∨ ∃ m u, w.get a ns = some m ∧ r.1 = some u ∧ NearestVec v m u)) q := by
    intro q
    unfold Server.nearestCentroidVec
    cases hg : w.get a ns with
    | none =>
      rw [run_access_none ((get_eq_none_iff hw).1 hg), Go.wp_pure]
      exact ⟨Nat.le_refl _, rfl, .inl ⟨rfl, rfl⟩⟩
    | some m =>
      obtain ⟨i, hl, hi⟩ := lookup_of_get hw hg
      have hok := hw.mok hi
      rw [run_access_some hl hi, bind_assoc, Go.wp_bind]
      refine Go.wp_mono (Manager.wp_nearestCentroids hok.wf v (by omega : (0 : Int) ≤ 1) false q) (fun r q' hr => ?_)
      obtain ⟨rfl, is, h1, h2, h3, h4, h5⟩ := hr
      rw [hok.knn] at h1
      obtain ⟨res, k1, k2⟩ := (C06_prefabs_kbest v m.centroidVecs 1).1
      rw [show ((1 : Nat) : Int) = 1 from rfl, h1] at k1
      cases k1
      cases is with
      | nil =>
        rw [h4 rfl]
        simp only [Option.getD_none, pure_bind, Go.wp_pure]
        refine ⟨Nat.le_refl _, put_same hi, .inr ⟨m, [], rfl, rfl, .inl ⟨rfl, fun c hc => ?_⟩⟩⟩
        have := k2.length
        simp only [List.length_nil] at this
        have hz : m.centroidVecs.countP (isCandidate (cosineSimilarity v) false) = 0 := by omega
        rw [List.countP_eq_zero] at hz
        simpa using hz c.vec (List.mem_map.2 ⟨c, hc, rfl⟩)
      | cons j js =>
        obtain ⟨cs, e1, e2, e3, _⟩ := h5 (by simp)
        have hjs : js = [] := by
          simp only [List.length_cons] at h3
          exact List.length_eq_zero_iff.1 (by omega)
        subst hjs
        cases cs with
        | nil => simp at e2
        | cons c cs =>
          simp only [List.map_cons, List.cons.injEq] at e2
          obtain ⟨hcj, _⟩ := e2
          rw [e1]
          simp only [Option.getD_some, pure_bind, Go.wp_pure]
          have hmem := List.mem_of_getElem? hcj
          have hcv : m.centroidVecs[j]? = some c.vec := by unfold Manager.centroidVecs; rw [List.getElem?_map, hcj]; rfl
          obtain ⟨s, v0, s1, s2, s3⟩ := k2.valid j (by simp)
          rw [hcv] at s1; cases s1
          refine ⟨Nat.le_refl _, by rw [e3 rfl]; exact put_same hi, .inr ⟨m, c.vec, rfl, rfl, .inr ⟨c, hmem, rfl, ?_, ?_⟩⟩⟩
          · unfold isCandidate; rw [s2]; simp [s3]
          · intro c' hc' s0 s' hs0 hs' hcomp
            obtain ⟨j', hj'⟩ := List.mem_iff_getElem?.1 hc'
            have hcv' : m.centroidVecs[j']? = some c'.vec := by unfold Manager.centroidVecs; rw [List.getElem?_map, hj']; rfl
            by_cases hjj : j' = j
            · subst hjj
              rw [hcj] at hj'; cases hj'
              rw [hs0] at hs'; cases hs'
              exact fun hb => absurd hb (by unfold Better; simp [LawfulCmp.lt_irrefl])
            · refine k2.best j (by simp) j' (by simpa using hjj) s0 s' ⟨c.vec, hcv, hs0, ?_⟩ ⟨c'.vec, hcv', hs', hcomp⟩
              rw [hs0] at s2; cases s2; exact s3
  refine Go.wp_mono (wp_call_same body ?_ p) (fun r p' hr => ⟨hr.1, hr.2.1, hr.2.2⟩)
  obtain ⟨r, p', _, _, _, h⟩ := Go.wp_iff.1 (body 0)
  exact ⟨_, h⟩

/-- `fetchVecs` when fetching changes nothing. -/
theorem wp_fetchVecs {env : Env} (he : EnvOK env) {addrs : List Addr} {fetch : Addr → Prog F (Option (List F))} {w : World F}
    {R : Addr → Option (List F) → Prop}
    (hf : ∀ a p, Go.wp ((fetch a).run w) (fun r p' => p ≤ p' ∧ r.2 = w ∧ R a r.1) p) (p : Nat) :
    Go.wp ((fetchVecs env addrs fetch).run w) (fun r p' => p ≤ p' ∧ r.2 = w ∧ ∃ answers : List (Addr × Option (List F)),
      (answers.map (fun q => q.1)).Perm addrs ∧ (∀ q ∈ answers, R q.1 q.2) ∧
      (r.1.map (fun q => (q.1, some q.2))).Perm (answers.filter (fun q => match q.2 with
        | some v => decide (v ≠ [])
        | none => false))) p := by
  unfold fetchVecs
  rw [run_bind, Go.wp_bind, run_loc, Go.wp_bind]
  refine wp_shuffled he (fun started hs => ?_)
  rw [Go.wp_pure, run_bind, Go.wp_bind]
  refine Go.wp_mono (wp_each_same (R := fun a (q : Addr × Option (List F)) => q.1 = a ∧ R a q.2) started (p + 1) (fun a _ q => ?_)) (fun r p1 hr => ?_)
  · rw [run_bind, Go.wp_bind]
    refine Go.wp_mono (hf a q) (fun r q' hr => ?_)
    rw [run_pure, Go.wp_pure]
    exact ⟨hr.1, hr.2.1, rfl, hr.2.2⟩
  · obtain ⟨h1, h2, h3⟩ := hr
    rw [run_bind, Go.wp_bind, run_loc, Go.wp_bind]
    refine wp_shuffled he (fun arr ha => ?_)
    rw [Go.wp_pure, run_pure, Go.wp_pure]
    have hmap : r.1.map (fun q => q.1) = started ∧ ∀ q ∈ r.1, R q.1 q.2 := by
      clear ha hs h2
      generalize r.1 = l at h3
      induction h3 with
      | nil => simp
      | cons a b ih =>
        obtain ⟨rfl, a2⟩ := a
        refine ⟨by rw [List.map_cons, ih.1], fun q hq => ?_⟩
        rcases List.mem_cons.1 hq with rfl | hq
        · exact a2
        · exact ih.2 q hq
    refine ⟨by omega, h2, arr, (ha.map _).trans (hmap.1 ▸ hs), fun q hq => hmap.2 q (ha.subset hq), .of_eq ?_⟩
    clear ha
    induction arr with
    | nil => rfl
    | cons q arr ih =>
      obtain ⟨a, o⟩ := q
      rcases o with _ | _ | ⟨x, xs⟩ <;> simp [ih]

theorem wp_pick {addrs : List Addr} {is : List Nat} {out : List Addr} (h : List.Forall₂ (fun i a => addrs[i]? = some a) is out) (p : Nat) :
    Go.wp (pick addrs is) (fun r p' => r = out ∧ p' = p) p := by
  induction h with
  | nil => unfold pick; rw [Go.wp_pure]; exact ⟨rfl, rfl⟩
  | cons a b ih =>
    unfold pick
    simp only [Go.wp_bind, Go.wp_idx]
    refine ⟨_, a, Go.wp_mono ih (fun r p' hr => ?_)⟩
    rw [Go.wp_pure]
    exact ⟨by rw [hr.1], hr.2⟩

/-- A search that finds the best. -/
def SearchesBest (search : Search F) (dist : List F → List F → Option F) (asc : Bool) : Prop :=
  ∀ t (pool : List (List F)) (k : Nat), ∃ r, search t pool k = .ok r ∧ KBest (dist t) asc pool k r

theorem wp_bestFitNodes {env : Env} (he : EnvOK env) {search : Search F} {dist : List F → List F → Option F} {asc : Bool}
    (hs : SearchesBest search dist asc) {addrs : List Addr} {v : List F} {fetch : Addr → Prog F (Option (List F))} {w : World F}
    {R : Addr → Option (List F) → Prop}
    (hf : ∀ a p, Go.wp ((fetch a).run w) (fun r p' => p ≤ p' ∧ r.2 = w ∧ R a r.1) p) (p : Nat) :
    Go.wp ((Nodes.bestFitNodes env search addrs v fetch).run w) (fun r p' => p ≤ p' ∧ r.2 = w ∧
      ∃ answers : List (Addr × Option (List F)), (answers.map (fun q => q.1)).Perm addrs ∧ (∀ q ∈ answers, R q.1 q.2) ∧
        BestFit (dist v) asc answers r.1) p := by
  unfold Nodes.bestFitNodes
  rw [run_bind, Go.wp_bind]
  refine Go.wp_mono (wp_fetchVecs he hf p) (fun r p1 hr => ?_)
  obtain ⟨h1, h2, answers, h3, h4, h5⟩ := hr
  rw [run_loc]
  simp only [Go.wp_bind, Go.wp_lift]
  obtain ⟨res, k1, k2⟩ := hs v (r.1.map (fun q => q.2)) r.1.length
  refine ⟨res, k1, ?_⟩
  obtain ⟨chosen, c1, c2, c3⟩ := kbest_all k2
  refine Go.wp_mono (wp_pick (out := chosen.map (fun q => q.1)) ?_ p1) (fun out p2 ho => ?_)
  · rw [List.forall₂_map_right_iff]
    refine c1.imp (fun i q hq => ?_)
    rw [List.getElem?_map, hq]; rfl
  · obtain ⟨rfl, rfl⟩ := ho
    rw [Go.wp_pure]
    refine ⟨h1, h2, answers, h3, h4, chosen, rfl, ?_, c3⟩
    let P : Addr × Option (List F) → Bool := fun q => match q.2 with | some u => isCandidate (dist v) asc u | none => false
    have e1 : (r.1.filter (fun q => isCandidate (dist v) asc q.2)).map (fun q => (q.1, some q.2)) =
        (r.1.map (fun q => (q.1, some q.2))).filter P := by rw [List.filter_map]; rfl
    refine (c2.map _).trans ((List.Perm.of_eq e1).trans ((h5.filter P).trans (List.Perm.of_eq ?_)))
    rw [List.filter_filter]
    refine List.filter_congr (fun q _ => ?_)
    obtain ⟨a, o⟩ := q
    cases o with
    | none => rfl
    | some u => exact Bool.and_comm _ _

theorem knnCos_searchesBest : SearchesBest (knnCos : Search F) cosineSimilarity false := fun t pool k => (C06_prefabs_kbest t pool k).1

/-- C44, `BestFitNodesFast`. Every address is asked once. The result is the addresses of the nodes that answered with a
comparable vector, most similar first, whatever the order in which the answers arrive. An answer is the vector of the
node's manager, unless the network fails. The search may be any that finds the best. -/
theorem C44_bestFit_fast {env : Env} (he : EnvOK env) {search : Search F} {dist : List F → List F → Option F} {asc : Bool}
    (hs : SearchesBest search dist asc) {D : NS → Nat} {w : World F} (hw : WorldOK D w) (addrs : List Addr) (ns : NS) (v : List F) (p : Nat) :
    ∃ out p' answers, (Nodes.bestFitNodesFast env search addrs ns v).run w p = .ok ((out, w), p') ∧
      (answers.map (fun q => q.1)).Perm addrs ∧
      (∀ q ∈ answers, Heard env q.1 ((w.get q.1 ns).map (fun m => m.vec)) q.2) ∧ BestFit (dist v) asc answers out := by
  obtain ⟨r, p', h0, _, h2, answers, h3, h4, h5⟩ := Go.wp_iff.1 (wp_bestFitNodes he hs (addrs := addrs) (v := v)
    (fetch := fun a => Client.vec env a ns) (fun a p => wp_vec_heard hw a ns p) p)
  exact ⟨r.1, p', answers, h0.trans (by rw [← h2]), h3, h4, h5⟩

/-- C44, `BestFitNodesAccurate`: as above, but the answer of a node is the vector of its centroid nearest to `v`. -/
theorem C44_bestFit_accurate {env : Env} (he : EnvOK env) {search : Search F} {dist : List F → List F → Option F} {asc : Bool}
    (hs : SearchesBest search dist asc) {D : NS → Nat} {w : World F} (hw : WorldOK D w) (addrs : List Addr) (ns : NS) (v : List F) (p : Nat) :
    ∃ out p' answers, (Nodes.bestFitNodesAccurate env search addrs ns v).run w p = .ok ((out, w), p') ∧
      (answers.map (fun q => q.1)).Perm addrs ∧
      (∀ q ∈ answers, ∃ val, (w.get q.1 ns = none ∧ val = none ∨ ∃ m u, w.get q.1 ns = some m ∧ val = some u ∧ NearestVec v m u) ∧
        Heard env q.1 val q.2) ∧ BestFit (dist v) asc answers out := by
  obtain ⟨r, p', h0, _, h2, answers, h3, h4, h5⟩ := Go.wp_iff.1 (wp_bestFitNodes he hs (addrs := addrs) (v := v)
    (fetch := fun a => Client.nearestCentroidVec env a ns v) (w := w) (R := fun a r => ∃ val, (w.get a ns = none ∧ val = none ∨
      ∃ m u, w.get a ns = some m ∧ val = some u ∧ NearestVec v m u) ∧ Heard env a val r) (fun a p => wp_nearestVec_heard hw a ns v p) p)
  exact ⟨r.1, p', answers, h0.trans (by rw [← h2]), h3, h4, h5⟩

/-- The shipped searches find the best. -/
example : SearchesBest (knnCos : Search F64) cosineSimilarity false := knnCos_searchesBest

open ServerExample in
/-- C44: node 2 has the vector (0,1), node 1 the vector (1,0), node 3 does not have the namespace. Answers arrive in order
or in reverse. -/
example : (∃ r p', ((fun r => r.1) <$> (Nodes.bestFitNodesFast env knnCos [1, 2, 3] 7 [F64.ofInt 1, .ofInt 3]).run two) 0 = .ok (r, p') ∧ r = [2, 1]) ∧
    (∃ r p', ((fun r => r.1) <$> (Nodes.bestFitNodesFast { env with perm := fun _ n => (List.range n).reverse } knnCos [1, 2, 3] 7
      [F64.ofInt 1, .ofInt 3]).run two) 0 = .ok (r, p') ∧ r = [2, 1]) ∧
    (∃ r p', ((fun r => r.1) <$> (Nodes.bestFitNodesAccurate env knnCos [1, 2, 3] 7 [F64.ofInt 3, .ofInt 1]).run two) 0 = .ok (r, p') ∧ r = [1, 2]) :=
  ⟨exists_of_run (f := id) (by decide +kernel), exists_of_run (f := id) (by decide +kernel), exists_of_run (f := id) (by decide +kernel)⟩

open ServerExample in
/-- C44: the theorem for this world. -/
example (v : List F64) : ∃ out p' answers, (Nodes.bestFitNodesFast env knnCos [1, 2, 3] 7 v).run two 0 = .ok ((out, two), p') ∧
    (answers.map (fun q => q.1)).Perm [1, 2, 3] ∧
    (∀ q ∈ answers, Heard env q.1 ((two.get q.1 7).map (fun m => m.vec)) q.2) ∧ BestFit (cosineSimilarity v) false answers out :=
  C44_bestFit_fast env_ok knnCos_searchesBest two_ok [1, 2, 3] 7 v 0

end Trypo
