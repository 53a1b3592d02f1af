import Verif.Props.Manager

/-!
# What a lookup finds can be compared with what was looked for
-/

set_option linter.unusedSectionVars false

namespace Trypo
open GoFloat Spec

variable {F : Type} [GoFloat F]

namespace Manager
open Centroid

theorem wp_lookupLoop_cand [LawfulCmp F] {tk : Nat → Int} (hm : MonoClock tk) (asc : Bool)
    (dist : List F → List F → Option F) (v : List F) (k : Nat) (drain : Bool) :
    ∀ (is : List Nat) (cm : Manager F) (res : List (DataPoint F)) (p : Nat), cm.WF →
      (∀ i ∈ is, i < cm.centroids.length) → cm.knn = (fun t pl k => knnBrute t pl k asc dist) → res.length ≤ k →
      (∀ d ∈ res, ∃ s, dist v d.vec = some s ∧ Comparable asc s) →
      Go.wp (lookupLoop tk v k drain is cm res) (fun r _ => ∀ d ∈ r.1, ∃ s, dist v d.vec = some s ∧ Comparable asc s) p
  | [], cm, res, p, _, _, _, _, h => by
    simp only [lookupLoop, Go.wp_pure]
    exact h
  | i :: is, cm, res, p, hw, hr, hk, hl, hres => by
    unfold lookupLoop
    rw [Go.wp_ite]
    refine ⟨fun h => ?_, fun h => ?_⟩
    · rw [Go.wp_pure]; exact hres
    · have hil := hr i (by simp)
      have hc : cm.centroids[i]? = some cm.centroids[i] := List.getElem?_eq_getElem hil
      have hcm := List.getElem_mem hil
      generalize cm.centroids[i] = c at hc hcm
      have hck : c.knn = fun t pl k => knnBrute t pl k asc dist := by rw [(hw.search c hcm).1, hk]
      have hcok : SearchOK c.knn := by rw [(hw.search c hcm).1]; exact hw.good.1
      have hkk : ((k - res.length : Nat) : Int) = (k : Int) - res.length := by omega
      rw [Go.wp_bind]
      refine Go.wp_mono (wp_onCentroid (tk := tk) hw hc _ (R := fun c' res' _ _ => res'.length ≤ k ∧
        ∀ d ∈ res', ∃ s, dist v d.vec = some s ∧ Comparable asc s) ?_) (fun r p1 h1 => ?_)
      · rw [Go.wp_bind, ← hkk]
        refine Go.wp_mono (Go.wp_and (Centroid.wp_knnLookup hm c hcok v (n := ((k - res.length : Nat) : Int)) (by omega) drain p)
          (Centroid.callOK_knnLookup hm c hcok (hw.dim c hcm).2 v (k := ((k - res.length : Nat) : Int)) (by omega) drain p))
          (fun q p1 hq => ?_)
        obtain ⟨hq, hok, _⟩ := hq
        have key : q.1.length ≤ k - res.length ∧ ∀ d ∈ q.1, ∃ s, dist v d.vec = some s ∧ Comparable asc s := by
          rw [hck] at hq
          cases drain with
          | true =>
            rw [if_pos rfl] at hq
            obtain ⟨surv, h1, h2, h3, h4, h5⟩ := Centroid.DrainEffect.best hq
            exact ⟨by omega, h4.comparable⟩
          | false =>
            rw [if_neg (by simp)] at hq
            obtain ⟨rest, h1, h2, h3⟩ := Centroid.LookupEffect.best hq
            exact ⟨by omega, h2.comparable⟩
        refine Go.wp_mono (wp_lookupTake tk k drain q.1 res q.2 p1 (by omega)) (fun s p2 hs => ?_)
        obtain ⟨rfl, rfl⟩ := hs
        exact ⟨_, hok, by simp only [List.length_append]; omega, fun d hd => (List.mem_append.1 hd).elim (hres d) (key.2 d)⟩
      · obtain ⟨out, c', e1, e2, e3, e4, e5⟩ := h1
        have hw1 := e1.wf
        rw [e2] at hw1 ⊢
        exact wp_lookupLoop_cand hm asc dist v k drain is _ r.1 p1 hw1
          (fun j hj => by rw [upd_centroids, List.length_set]; exact hr j (by simp [hj])) hk e4 e5

/-- Everything that `KNNLookup` finds has a comparable score. -/
theorem wp_knnLookup_cand [LawfulCmp F] {tk : Nat → Int} (hm : MonoClock tk) {asc : Bool} {dist : List F → List F → Option F}
    {cm : Manager F} (hw : cm.WF) (hk : cm.knn = fun t pl k => knnBrute t pl k asc dist) (v : List F) {k : Int} (h0 : 0 ≤ k) (drain : Bool) (p : Nat) :
    Go.wp (cm.knnLookup tk v k drain) (fun r _ => ∀ d ∈ r.1, ∃ s, dist v d.vec = some s ∧ Comparable asc s) p := by
  obtain ⟨n, rfl⟩ := Int.eq_ofNat_of_zero_le h0
  unfold knnLookup
  simp only [Go.wp_bind, Go.wp_checkMake, Go.wp_lift]
  obtain ⟨r, h1, h2, h3, h4⟩ := hw.good.1 v cm.centroidVecs n h0
  have hr : ∀ i ∈ r, i < cm.centroids.length := by
    intro i hi; have := h3 i hi; rwa [centroidVecs, List.length_map] at this
  exact ⟨h0, r, h1, wp_lookupLoop_cand hm asc dist v n drain r cm [] p hw hr hk (by simp) (by simp)⟩

end Manager

/-! ### Infinities and NaN are not comparable -/

namespace F64

/-- Not NaN and not infinite. -/
def isFinite : F64 → Bool
  | .fin _ _ => true
  | _ => false

theorem add_inf (a b : F64) (h : isFinite a = false ∨ isFinite b = false) : isFinite (F64.add a b) = false := by
  rcases a with _ | a | ⟨a, k⟩ <;> rcases b with _ | b | ⟨b, k'⟩ <;> simp_all [F64.add, isFinite]
  split <;> first | rfl | (rename_i h; split at h <;> cases h)

theorem mul_inf (a b : F64) (h : isFinite a = false ∨ isFinite b = false) : isFinite (F64.mul a b) = false := by
  rcases a with _ | a | ⟨a, k⟩ <;> rcases b with _ | b | ⟨b, k'⟩ <;> simp_all [F64.mul, isFinite] <;>
    split <;> first | rfl | (rename_i h; split at h <;> cases h)

theorem sqrt_inf (a : F64) (h : isFinite a = false) : isFinite (F64.sqrt a) = false := by
  rcases a with _ | a | ⟨a, k⟩
  · rfl
  · cases a <;> rfl
  · cases h

theorem div_inf (a b : F64) (h : isFinite a = false) : isFinite (F64.div a b) = false := by
  rcases a with _ | a | ⟨a, k⟩ <;> rcases b with _ | b | ⟨b, k'⟩ <;> simp_all [F64.div, isFinite]

theorem div_inf_inf (a b : F64) (h : isFinite a = false) (h' : isFinite b = false) : F64.div a b = .nan := by
  rcases a with _ | a | ⟨a, k⟩ <;> rcases b with _ | b | ⟨b, k'⟩ <;> simp_all [F64.div, isFinite]

theorem dot_inf : ∀ (l : List (F64 × F64)) (x : F64), (isFinite x = false ∨ ∃ q ∈ l, isFinite q.2 = false) →
    isFinite (l.foldl (fun r p => GoFloat.add r (GoFloat.mul p.1 p.2)) x) = false
  | [], x, h => by rcases h with h | ⟨q, hq, _⟩; exacts [h, (by cases hq)]
  | q :: l, x, h => by
    refine dot_inf l _ ?_
    rcases h with h | ⟨r, hr, h⟩
    · exact .inl (add_inf _ _ (.inl h))
    · rcases List.mem_cons.1 hr with rfl | hr
      · exact .inl (add_inf _ _ (.inr (mul_inf _ _ (.inr h))))
      · exact .inr ⟨r, hr, h⟩

theorem norm_inf : ∀ (l : List F64) (x : F64), (isFinite x = false ∨ ∃ q ∈ l, isFinite q = false) →
    isFinite (l.foldl (fun r a => GoFloat.add r (GoFloat.mul a a)) x) = false
  | [], x, h => by rcases h with h | ⟨q, hq, _⟩; exacts [h, (by cases hq)]
  | q :: l, x, h => by
    refine norm_inf l _ ?_
    rcases h with h | ⟨r, hr, h⟩
    · exact .inl (add_inf _ _ (.inl h))
    · rcases List.mem_cons.1 hr with rfl | hr
      · exact .inl (add_inf _ _ (.inr (mul_inf _ _ (.inr h))))
      · exact .inr ⟨r, hr, h⟩

theorem nan_not_comparable (asc : Bool) : ¬ Comparable asc (F64.nan : F64) := by
  cases asc <;> simp [Comparable, Better, GoFloat.lt, F64.lt]
  cases h : (GoFloat.neg (GoFloat.maxFloat : F64)) <;> simp

/-- A vector that can be compared has only finite components. -/
theorem comparable_finite {v w : List F64} {asc : Bool} {s : F64} (h : cosineSimilarity v w = some s) (hc : Comparable asc s) :
    v.length = w.length ∧ ∀ x ∈ w, isFinite x = true := by
  unfold cosineSimilarity at h
  split at h
  · cases h
  · rename_i hlen
    simp only [ne_eq, not_not] at hlen
    refine ⟨hlen, fun x hx => ?_⟩
    cases hf : isFinite x with
    | true => rfl
    | false =>
      exfalso
      have hn : isFinite (norm w) = false := sqrt_inf _ (norm_inf w _ (.inr ⟨x, hx, hf⟩))
      have hd : isFinite (dot v w) = false := by
        obtain ⟨i, hi⟩ := List.mem_iff_getElem?.1 hx
        have hiw := (List.getElem?_eq_some_iff.1 hi).1
        refine dot_inf _ _ (.inr ⟨(v[i]'(by omega), x), ?_, hf⟩)
        refine List.mem_of_getElem? (i := i) ?_
        rw [List.getElem?_zip_eq_some]
        exact ⟨List.getElem?_eq_getElem _, hi⟩
      have he : GoFloat.eq (norm w) (GoFloat.zero : F64) = false := by
        show F64.beq (norm w) (.fin false 0) = false
        cases hw : norm w with
        | fin a k => rw [hw] at hn; cases hn
        | _ => rfl
      rw [he, Bool.and_false] at h
      simp only [Bool.false_eq_true, if_false, Option.some.injEq] at h
      have : s = .nan := h.symm.trans (div_inf_inf _ _ (div_inf _ _ hd) hn)
      subst this
      exact nan_not_comparable asc hc

end F64
end Trypo
