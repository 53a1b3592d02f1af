import Verif.Spec.Settle
import Verif.Props.Manager

/-!
# Property C88: splitting and merging settle
-/

set_option linter.unusedSectionVars false
set_option linter.unusedVariables false

namespace Trypo
open GoFloat Spec

variable {F : Type} [GoFloat F]

namespace Manager

/-- With no centroid to be merged, `MergeCentroids` does nothing. -/
theorem mergeOuter_none {tk : Nat → Int} {merge : Centroid F → Bool} {cm : Manager F} (h : ∀ x ∈ cm.centroids, merge x = false)
    (marks : List Nat) (p : Nat) : ∀ is : List Nat, (∀ i ∈ is, i < cm.centroids.length) →
    Go.wp (mergeOuter tk merge is marks cm) (fun r p' => r = (marks, cm) ∧ p' = p) p
  | [], _ => by simp [mergeOuter]
  | i :: is, hi => by
    have hlt := hi i (by simp)
    simp only [mergeOuter, Go.wp_bind, Go.wp_idx]
    refine ⟨_, List.getElem?_eq_getElem hlt, ?_⟩
    rw [h _ (List.getElem_mem hlt)]
    simpa using mergeOuter_none h marks p is (fun j hj => hi j (by simp [hj]))

theorem wp_merge_none {tk : Nat → Int} {merge : Centroid F → Bool} {cm : Manager F} (h : ∀ x ∈ cm.centroids, merge x = false) (p : Nat) :
    Go.wp (cm.mergeCentroids tk merge) (fun cm' _ => cm' = cm) p := by
  unfold mergeCentroids
  rw [Go.wp_bind]
  refine Go.wp_mono (mergeOuter_none h [] p _ (fun i hi => by simpa using hi)) (fun r p' hr => ?_)
  rw [hr.1]
  simp [deleteAll]

theorem mergeInner_self {tk : Nat → Int} {merge : Centroid F → Bool} {i : Nat} (marks : List Nat) (cs : List (Centroid F)) (p : Nat) :
    ∀ js : List Nat, (∀ j ∈ js, j = i) → Go.wp (mergeInner tk merge i js marks cs) (fun r _ => r = (marks, cs)) p
  | [], _ => by simp [mergeInner]
  | j :: js, h => by
    rw [mergeInner, if_pos (.inl (h j (by simp)))]
    exact mergeInner_self marks cs p js (fun x hx => h x (by simp [hx]))

/-- A single centroid stays as it is. -/
theorem wp_merge_single {tk : Nat → Int} {merge : Centroid F → Bool} {cm : Manager F} (hw : cm.WF) {x : Centroid F} (h : cm.centroids = [x])
    (p : Nat) : Go.wp (cm.mergeCentroids tk merge) (fun cm' _ => cm'.centroids = cm.centroids) p := by
  obtain ⟨is, e1, e2, e3, e4⟩ := hw.good.1 x.vec cm.centroidVecs cm.centroids.length (by omega)
  unfold mergeCentroids
  rw [Go.wp_bind, show List.range cm.centroids.length = [0] by rw [h]; rfl]
  simp only [mergeOuter, Go.wp_bind, Go.wp_idx]
  refine ⟨x, by rw [h]; rfl, ?_⟩
  rw [Go.wp_ite]
  refine ⟨fun _ => by simp [deleteAll], fun _ => ?_⟩
  simp only [Go.wp_bind, Go.wp_lift]
  refine ⟨is, e1, Go.wp_mono (mergeInner_self [] cm.centroids p is (fun j hj => ?_)) (fun r p' hr => ?_)⟩
  · have := e3 j hj
    simp only [centroidVecs, h, List.map_cons, List.map_nil, List.length_singleton] at this
    omega
  · rw [hr]
    simp only [Go.wp_idx]
    refine ⟨x, by rw [h]; rfl, ?_⟩
    simp [deleteAll, updateVec]

/-- With no centroid to be split, `SplitCentroids` does nothing. -/
theorem splitLoop_none {tk : Nat → Int} {split : Centroid F → Bool} {cm : Manager F} (h : ∀ x ∈ cm.centroids, split x = false)
    (acc : List (Centroid F)) (p : Nat) : ∀ is : List Nat, (∀ i ∈ is, i < cm.centroids.length) →
    Go.wp (splitLoop tk split is cm acc) (fun r _ => r = (acc, cm)) p
  | [], _ => by simp [splitLoop]
  | i :: is, hi => by
    have hlt := hi i (by simp)
    simp only [splitLoop, Go.wp_bind, Go.wp_idx]
    refine ⟨_, List.getElem?_eq_getElem hlt, ?_⟩
    rw [h _ (List.getElem_mem hlt)]
    simpa using splitLoop_none h acc p is (fun j hj => hi j (by simp [hj]))

theorem wp_split_none {tk : Nat → Int} {split : Centroid F → Bool} {cm : Manager F} (h : ∀ x ∈ cm.centroids, split x = false) (p : Nat) :
    Go.wp (cm.splitCentroids tk split) (fun cm' _ => cm' = cm) p := by
  unfold splitCentroids
  rw [Go.wp_bind]
  refine Go.wp_mono (splitLoop_none h [] p _ (fun i hi => by simpa using hi)) (fun r p' hr => ?_)
  rw [hr]
  simp

/-- Where the sizes after `SplitCentroids` come from. -/
theorem split_sizes {tk : Nat → Int} (hm : MonoClock tk) {cm : Manager F} (hok : ManagerOK cm) {split : Centroid F → Bool}
    (hl : ∀ d ∈ stored cm, ∀ q, ¬ Dead (tk q) d) (p : Nat) :
    ∃ cm' p', cm.splitCentroids tk split p = .ok (cm', p') ∧ Eff tk p p' cm cm' [] [] ∧
      ∀ x ∈ cm'.centroids, (x ∈ cm.centroids ∧ (split x = true → x.dps.length < 2)) ∨
        ∃ c ∈ cm.centroids, split c = true ∧ 2 ≤ c.dps.length ∧
          (x.dps.length = c.dps.length / 2 ∨ x.dps.length = c.dps.length - c.dps.length / 2) := by
  obtain ⟨cm', p', h0, cm1, X, h1, h2, h3⟩ := Go.wp_iff.1 (wp_splitCentroids hm hok.wf split p)
  obtain ⟨g1, g2⟩ := h3.exact hl
  refine ⟨cm', p', h0, h1, fun x hx => ?_⟩
  rw [h2, List.mem_append] at hx
  rcases hx with hx | hx
  · obtain ⟨k, hk, hxk⟩ := List.getElem_of_mem hx
    have hk' : k < cm.centroids.length := by rw [← h3.length]; exact hk
    have e1 : cm1.centroids[k]? = some x := by rw [List.getElem?_eq_getElem hk, hxk]
    have e2 := List.getElem?_eq_getElem hk'
    by_cases hc : split cm.centroids[k] = true ∧ 2 ≤ cm.centroids[k].dps.length
    · refine .inr ⟨_, List.getElem_mem hk', hc.1, hc.2, .inr ?_⟩
      rw [g1 k _ _ e2 e1 (by simpa using hk') hc.1, List.length_drop]
    · have := h3.frame k (.inr (by
        rintro ⟨y, hy, hy1, hy2⟩
        rw [e2] at hy; cases hy
        exact hc ⟨hy1, hy2⟩))
      rw [e1, e2] at this
      cases this
      exact .inl ⟨List.getElem_mem hk', fun h => Nat.lt_of_not_le (fun h2 => hc ⟨h, h2⟩)⟩
  · have : x.dps ∈ X.map (fun x => x.dps) := List.mem_map.2 ⟨x, hx, rfl⟩
    rw [g2, List.mem_filterMap] at this
    obtain ⟨i, hi, he⟩ := this
    split at he
    · rename_i c hc
      split at he
      · rename_i hcc
        simp only [Option.some.injEq] at he
        refine .inr ⟨c, List.mem_of_getElem? hc, hcc.1, hcc.2, .inl ?_⟩
        rw [← he, List.length_take]
        omega
      · cases he
    · cases he

end Manager

theorem Conserved.perm_of_live {tk : Nat → Int} {p : Nat} {a b : List (DataPoint F)} (h : Conserved (tk p) a b [])
    (hl : ∀ d ∈ a, ∀ q, ¬ Dead (tk q) d) : b.Perm a := by
  obtain ⟨lost, h1, h2⟩ := h
  have : lost = [] := by
    refine List.eq_nil_iff_forall_not_mem.2 (fun d hd => ?_)
    exact hl d (h1.mem_iff.1 (by simp [hd])) p (h2 d hd)
  simpa [this] using h1

/-- What stays the same under maintenance. -/
structure Upkept (tk : Nat → Int) (cm0 cm : Manager F) : Prop where
  ok : ManagerOK cm
  knn : cm.knn = cm0.knn
  perm : (stored cm).Perm (stored cm0)

theorem sizeBetween_iff {a b : Int} {x : Centroid F} : sizeBetween a b x = true ↔ a < (x.dps.length : Int) ∧ (x.dps.length : Int) < b := by
  simp [sizeBetween]

theorem sizeBetween_false {a b : Int} {x : Centroid F} : sizeBetween a b x = false ↔ ¬ (a < (x.dps.length : Int) ∧ (x.dps.length : Int) < b) := by
  rw [← sizeBetween_iff, Bool.not_eq_true]

section
variable {tk : Nat → Int} {cm0 cm : Manager F} {a b c d : Int}

theorem Upkept.live (h : Upkept tk cm0 cm) (hl : ∀ d ∈ stored cm0, ∀ q, ¬ Dead (tk q) d) : ∀ d ∈ stored cm, ∀ q, ¬ Dead (tk q) d :=
  fun d hd => hl d (h.perm.mem_iff.1 hd)

theorem Upkept.eff (h : Upkept tk cm0 cm) (hl : ∀ d ∈ stored cm0, ∀ q, ¬ Dead (tk q) d) {p p' : Nat} {cm' : Manager F}
    (he : Manager.Eff tk p p' cm cm' [] []) : Upkept tk cm0 cm' :=
  ⟨he.wf.ok, he.same.knn.trans h.knn, (Conserved.perm_of_live (a := stored cm) (b := stored cm') he.conserved (h.live hl)).trans h.perm⟩

/-- One call. -/
theorem upkeep_step (hm : MonoClock tk) (h : Upkept tk cm0 cm) (hl : ∀ d ∈ stored cm0, ∀ q, ¬ Dead (tk q) d) (o : Bool)
    (acc out : List (DataPoint F)) (p : Nat) :
    ∃ cm' p', (upkeep a b c d o).run tk ⟨cm, acc, out⟩ p = .ok (⟨cm', acc, out⟩, p') ∧ Upkept tk cm0 cm' ∧
      (o = true → cm.splitCentroids tk (sizeBetween a b) p = .ok (cm', p')) ∧
      (o = false → cm.mergeCentroids tk (sizeBetween c d) p = .ok (cm', p')) := by
  cases o with
  | true =>
    obtain ⟨cm', p', h0, h1, _⟩ := Manager.split_sizes hm h.ok (split := sizeBetween a b) (h.live hl) p
    refine ⟨cm', p', ?_, h.eff hl h1, fun _ => h0, by simp⟩
    obtain ⟨r, p2, e1, e2, e3⟩ := Go.wp_iff.1 (show Go.wp ((upkeep a b c d true).run tk ⟨cm, acc, out⟩) (fun r q => r = ⟨cm', acc, out⟩ ∧ q = p') p by
      simp only [upkeep, ManagerCall.run, Go.wp_bind, Go.wp_pure]
      exact Go.wp_iff.2 ⟨_, _, h0, rfl, rfl⟩)
    rw [e1, e2, e3]
  | false =>
    obtain ⟨cm', p', h0, h1, _⟩ := Go.wp_iff.1 (Manager.wp_mergeCentroids hm h.ok.wf (sizeBetween c d) p)
    refine ⟨cm', p', ?_, h.eff hl h1, by simp, fun _ => h0⟩
    obtain ⟨r, p2, e1, e2, e3⟩ := Go.wp_iff.1 (show Go.wp ((upkeep a b c d false).run tk ⟨cm, acc, out⟩) (fun r q => r = ⟨cm', acc, out⟩ ∧ q = p') p by
      simp only [upkeep, ManagerCall.run, Go.wp_bind, Go.wp_pure]
      exact Go.wp_iff.2 ⟨_, _, h0, rfl, rfl⟩)
    rw [e1, e2, e3]

theorem run_cons {o : ManagerCall F} {os : List (ManagerCall F)} {w w' : ManagerWorld F} {p p' : Nat} (h : o.run tk w p = .ok (w', p')) :
    runManagerCalls tk (o :: os) w p = runManagerCalls tk os w' p' := by
  simp only [runManagerCalls, bind, StateT.bind, Except.bind]
  rw [h]

/-- Calls before anything is known. -/
theorem upkeep_calls (hm : MonoClock tk) (hl : ∀ d ∈ stored cm0, ∀ q, ¬ Dead (tk q) d) (acc out : List (DataPoint F)) (more : List (ManagerCall F)) :
    ∀ (os : List Bool) (cm : Manager F) (p : Nat), Upkept tk cm0 cm →
      ∃ cm' p', runManagerCalls tk (os.map (upkeep a b c d) ++ more) ⟨cm, acc, out⟩ p = runManagerCalls tk more ⟨cm', acc, out⟩ p' ∧ Upkept tk cm0 cm'
  | [], cm, p, h => ⟨cm, p, rfl, h⟩
  | o :: os, cm, p, h => by
    obtain ⟨cm1, p1, h1, h2, _⟩ := upkeep_step (a := a) (b := b) (c := c) (d := d) hm h hl o acc out p
    obtain ⟨cm2, p2, h3, h4⟩ := upkeep_calls hm hl acc out more os cm1 p1 h2
    exact ⟨cm2, p2, by rw [List.map_cons, List.cons_append, run_cons h1]; exact h3, h4⟩

/-- No centroid is to be merged. -/
def Merged (c d : Int) (cs : List (Centroid F)) : Prop := cs.length ≤ 1 ∨ ∀ x ∈ cs, sizeBetween c d x = false

theorem Merged.again (hm : MonoClock tk) (h : Merged c d cm.centroids) (hok : ManagerOK cm) {cm' : Manager F} {p p' : Nat}
    (he : cm.mergeCentroids tk (sizeBetween c d) p = .ok (cm', p')) : cm'.centroids = cm.centroids := by
  have key : Go.wp (cm.mergeCentroids tk (sizeBetween c d)) (fun r _ => r.centroids = cm.centroids) p := by
    rcases h with h | h
    · cases hc : cm.centroids with
      | nil =>
        refine Go.wp_mono (Manager.wp_merge_none (by simp [hc]) p) (fun r _ hr => ?_)
        rw [hr, hc]
      | cons x xs =>
        rw [hc] at h
        have : xs = [] := List.eq_nil_of_length_eq_zero (by rw [List.length_cons] at h; omega)
        subst this
        rw [← hc]
        exact Manager.wp_merge_single hok.wf hc p
    · exact Go.wp_mono (Manager.wp_merge_none h p) (fun r _ hr => by rw [hr])
  obtain ⟨r, q, h1, h2⟩ := Go.wp_iff.1 key
  rw [he] at h1; cases h1
  exact h2

/-- The parts of a split centroid are not to be merged. -/
theorem Merged.split (hm : MonoClock tk) (h : Merged c d cm.centroids) (hok : ManagerOK cm) (hl : ∀ d ∈ stored cm, ∀ q, ¬ Dead (tk q) d)
    (ha : 1 ≤ a) (hgap : 2 * d ≤ a + 1) {cm' : Manager F} {p p' : Nat}
    (he : cm.splitCentroids tk (sizeBetween a b) p = .ok (cm', p')) : Merged c d cm'.centroids := by
  obtain ⟨r, q, h1, _, h3⟩ := Manager.split_sizes hm hok (split := sizeBetween a b) hl p
  rw [he] at h1; cases h1
  by_cases hs : ∀ x ∈ cm.centroids, sizeBetween a b x = false
  · obtain ⟨r, q, e1, e2⟩ := Go.wp_iff.1 (Manager.wp_split_none (tk := tk) hs p)
    rw [he] at e1; cases e1
    rw [e2]; exact h
  · have hall : ∀ x ∈ cm.centroids, sizeBetween c d x = false := by
      rcases h with h | h
      · intro x hx
        cases hc : cm.centroids with
        | nil => rw [hc] at hx; simp at hx
        | cons y ys =>
          rw [hc] at h
          have : ys = [] := List.eq_nil_of_length_eq_zero (by rw [List.length_cons] at h; omega)
          subst this
          rw [hc] at hx hs
          simp only [List.mem_singleton, forall_eq, Bool.not_eq_false, sizeBetween_iff] at hx hs
          subst hx
          rw [sizeBetween_false]
          omega
      · exact h
    refine .inr (fun x hx => ?_)
    rcases h3 x hx with ⟨h4, _⟩ | ⟨y, hy, hy1, hy2, hy3⟩
    · exact hall x h4
    · rw [sizeBetween_iff] at hy1
      rw [sizeBetween_false]
      rcases hy3 with hy3 | hy3 <;> omega

/-- How large a centroid can be that is still to be split, after `j` rounds of splitting. -/
def Halved (a b : Int) (N j : Nat) (cs : List (Centroid F)) : Prop :=
  ∀ x ∈ cs, sizeBetween a b x = true → (x.dps.length - 1) * 2 ^ j < N

theorem Halved.split (hm : MonoClock tk) {N j : Nat} (h : Halved a b N j cm.centroids) (hok : ManagerOK cm)
    (hl : ∀ d ∈ stored cm, ∀ q, ¬ Dead (tk q) d) (ha : 1 ≤ a) {cm' : Manager F} {p p' : Nat}
    (he : cm.splitCentroids tk (sizeBetween a b) p = .ok (cm', p')) : Halved a b N (j + 1) cm'.centroids := by
  obtain ⟨r, q, h1, _, h3⟩ := Manager.split_sizes hm hok (split := sizeBetween a b) hl p
  rw [he] at h1; cases h1
  intro x hx hs
  rcases h3 x hx with ⟨_, h4⟩ | ⟨y, hy, hy1, hy2, hy3⟩
  · have := h4 hs
    rw [sizeBetween_iff] at hs
    omega
  · have := h y hy hy1
    have hle : (x.dps.length - 1) * 2 ≤ y.dps.length - 1 := by rcases hy3 with hy3 | hy3 <;> omega
    rw [pow_succ, Nat.mul_comm (2 ^ j) 2, ← Nat.mul_assoc]
    exact Nat.lt_of_le_of_lt (Nat.mul_le_mul_right _ hle) this

/-- Calls after the first merge. -/
theorem settle_calls (hm : MonoClock tk) (hl : ∀ d ∈ stored cm0, ∀ q, ¬ Dead (tk q) d) (ha : 1 ≤ a) (hgap : 2 * d ≤ a + 1) (N : Nat)
    (acc out : List (DataPoint F)) : ∀ (os : List Bool) (cm : Manager F) (j p : Nat), Upkept tk cm0 cm → Merged c d cm.centroids →
      Halved a b N j cm.centroids →
      ∃ cm' p', runManagerCalls tk (os.map (upkeep a b c d)) ⟨cm, acc, out⟩ p = .ok (⟨cm', acc, out⟩, p') ∧ Upkept tk cm0 cm' ∧
        Merged c d cm'.centroids ∧ Halved a b N (j + os.count true) cm'.centroids
  | [], cm, j, p, h, h1, h2 => ⟨cm, p, rfl, h, h1, by simpa using h2⟩
  | o :: os, cm, j, p, h, h1, h2 => by
    obtain ⟨cm1, p1, e1, e2, e3, e4⟩ := upkeep_step (a := a) (b := b) (c := c) (d := d) hm h hl o acc out p
    cases o with
    | true =>
      obtain ⟨cm2, p2, f1, f2, f3, f4⟩ := settle_calls hm hl ha hgap N acc out os cm1 (j + 1) p1 e2
        (h1.split hm h.ok (h.live hl) ha hgap (e3 rfl)) (h2.split hm h.ok (h.live hl) ha (e3 rfl))
      refine ⟨cm2, p2, by rw [List.map_cons, run_cons e1]; exact f1, f2, f3, ?_⟩
      rw [List.count_cons_self, show j + (os.count true + 1) = j + 1 + os.count true by omega]
      exact f4
    | false =>
      have hs := h1.again hm h.ok (e4 rfl)
      obtain ⟨cm2, p2, f1, f2, f3, f4⟩ := settle_calls hm hl ha hgap N acc out os cm1 j p1 e2 (by rw [hs]; exact h1) (by rw [hs]; exact h2)
      refine ⟨cm2, p2, by rw [List.map_cons, run_cons e1]; exact f1, f2, f3, ?_⟩
      rw [List.count_cons_of_ne (by simp)]
      exact f4

theorem settled_calls (hm : MonoClock tk) (hl : ∀ d ∈ stored cm0, ∀ q, ¬ Dead (tk q) d)
    (acc out : List (DataPoint F)) : ∀ (os : List Bool) (cm : Manager F) (p : Nat), Upkept tk cm0 cm → Merged c d cm.centroids →
      (∀ x ∈ cm.centroids, sizeBetween a b x = false) →
      ∃ cm' p', runManagerCalls tk (os.map (upkeep a b c d)) ⟨cm, acc, out⟩ p = .ok (⟨cm', acc, out⟩, p') ∧ cm'.centroids = cm.centroids
  | [], cm, p, h, h1, h2 => ⟨cm, p, rfl, rfl⟩
  | o :: os, cm, p, h, h1, h2 => by
    obtain ⟨cm1, p1, e1, e2, e3, e4⟩ := upkeep_step (a := a) (b := b) (c := c) (d := d) hm h hl o acc out p
    have hs : cm1.centroids = cm.centroids := by
      cases o with
      | true =>
        obtain ⟨r, q, g1, g2⟩ := Go.wp_iff.1 (Manager.wp_split_none (tk := tk) h2 p)
        rw [e3 rfl] at g1; cases g1
        rw [g2]
      | false => exact h1.again hm h.ok (e4 rfl)
    obtain ⟨cm2, p2, f1, f2⟩ := settled_calls hm hl acc out os cm1 p1 e2 (by rw [hs]; exact h1) (by rw [hs]; exact h2)
    exact ⟨cm2, p2, by rw [List.map_cons, run_cons e1]; exact f1, f2.trans hs⟩

end

/-- C88. Let the parts of a centroid that is split be too large to be merged. Then in every sequence of calls of
`SplitCentroids` and `MergeCentroids`, once a merge has been followed by `k` splits, where at most `2^k` datapoints are stored, nothing is
left to split or to merge, no datapoint has come or gone, and further calls leave every centroid as it is. -/
theorem C88_settles {tk : Nat → Int} (hm : MonoClock tk) {cm : Manager F} (hok : ManagerOK cm) (hfa : FindsAll cm.knn)
    (hl : ∀ x ∈ stored cm, ∀ q, ¬ Dead (tk q) x) {a b c d : Int} (ha : 1 ≤ a) (hgap : 2 * d ≤ a + 1) (acc out : List (DataPoint F))
    (before after : List Bool) (hk : (stored cm).length ≤ 2 ^ after.count true) (p : Nat) :
    ∃ cm' p', runManagerCalls tk ((before ++ false :: after).map (upkeep a b c d)) ⟨cm, acc, out⟩ p = .ok (⟨cm', acc, out⟩, p') ∧
      (stored cm').Perm (stored cm) ∧ Settled a b c d cm'.centroids ∧
      ∀ more : List Bool, ∃ cm'' p'', runManagerCalls tk (more.map (upkeep a b c d)) ⟨cm', acc, out⟩ p' = .ok (⟨cm'', acc, out⟩, p'') ∧
        cm''.centroids = cm'.centroids := by
  obtain ⟨cm1, p1, e1, e2⟩ := upkeep_calls (a := a) (b := b) (c := c) (d := d) hm hl acc out ((false :: after).map (upkeep a b c d)) before cm p
    ⟨hok, rfl, List.Perm.refl _⟩
  obtain ⟨cm2, p2, f1, f2, f3, f4⟩ := upkeep_step (a := a) (b := b) (c := c) (d := d) hm e2 hl false acc out p1
  have hmer : Merged c d cm2.centroids := by
    obtain ⟨r, q, g1, _, _, g2⟩ := C29_mergeCentroids hm e2.ok (sizeBetween c d) p1
    rw [f4 rfl] at g1; cases g1
    exact g2 (by rw [e2.knn]; exact hfa)
  have hhalf : Halved a b ((stored cm).length) 0 cm2.centroids := by
    intro x hx hs
    rw [sizeBetween_iff] at hs
    have : x.dps.length ≤ (stored cm).length := by
      rw [← f2.perm.length_eq]
      unfold stored
      rw [List.length_flatMap]
      exact List.le_sum_of_mem (List.mem_map.2 ⟨x, hx, rfl⟩)
    rw [pow_zero, Nat.mul_one]
    omega
  obtain ⟨cm3, p3, g1, g2, g3, g4⟩ := settle_calls (c := c) (d := d) hm hl ha hgap _ acc out after cm2 0 p2 f2 hmer hhalf
  have hsplit : ∀ x ∈ cm3.centroids, sizeBetween a b x = false := by
    intro x hx
    rw [← Bool.not_eq_true]
    intro hs
    have := g4 x hx hs
    rw [sizeBetween_iff] at hs
    rw [Nat.zero_add] at this
    have h1 : 1 * 2 ^ after.count true ≤ (x.dps.length - 1) * 2 ^ after.count true := Nat.mul_le_mul_right _ (by omega)
    omega
  refine ⟨cm3, p3, ?_, g2.perm, ⟨fun x hx => sizeBetween_false.1 (hsplit x hx), g3.imp id (fun h x hx => sizeBetween_false.1 (h x hx))⟩, fun more => ?_⟩
  · rw [List.map_append, e1, List.map_cons, run_cons f1]
    exact g1
  · exact settled_calls hm hl acc out more cm3 p3 g2 g3 hsplit

namespace SettleExample
open ManagerExample

/-- The contents of the centroids after maintenance calls. -/
def after (a b c d : Int) (os : List Bool) : Except Panic (List (List (DataPoint F64))) :=
  (runManagerCalls clk (os.map (upkeep a b c d)) ⟨cmL, [], []⟩ 0).map (fun r => sizes r.1.cm)

/-- C88: sizes below 2 are merged, sizes above 3 are split; after two rounds nothing changes any more. -/
example : after 3 100 (-1) 2 [] = .ok [[dp 1, dp 2, dp 3, dp 4], [dp 10], [dp 7, dp 9]] ∧
    after 3 100 (-1) 2 [true, false] = .ok [[dp 3, dp 4], [dp 10, dp 7, dp 9], [dp 1, dp 2]] ∧
    after 3 100 (-1) 2 [true, false, true, true, true] = after 3 100 (-1) 2 [true, false] ∧
    after 3 100 (-1) 2 [true, false, true, true, true, false, true] = after 3 100 (-1) 2 [true, false] :=
  ⟨by decide +kernel, by decide +kernel, by decide +kernel, by decide +kernel⟩

/-- C88 needs the gap: when sizes above 2 are split and sizes below 3 merged, the two undo each other for ever. -/
example : after 2 100 (-1) 3 [false] = .ok [[dp 1, dp 2, dp 3, dp 4], [dp 10, dp 7, dp 9]] ∧
    after 2 100 (-1) 3 [false, true] = .ok [[dp 3, dp 4], [dp 7, dp 9], [dp 1, dp 2], [dp 10]] ∧
    after 2 100 (-1) 3 [false, true, false] = .ok [[dp 3, dp 4, dp 1, dp 2], [dp 7, dp 9, dp 10]] ∧
    after 2 100 (-1) 3 [false, true, false, true] = .ok [[dp 1, dp 2], [dp 9, dp 10], [dp 3, dp 4], [dp 7]] :=
  ⟨by decide +kernel, by decide +kernel, by decide +kernel, by decide +kernel⟩

/-- A real datapoint. -/
noncomputable def rdp (x : ℝ) : DataPoint ℝ := ⟨[x], [], 0, false⟩
/-- A manager with two centroids, with the searches of cfg/cfg.go:46, 49. -/
noncomputable def real : Manager ℝ := ⟨[2], 0, [⟨[1], [rdp 1, rdp 1], knnCos, kfnCos⟩, ⟨[3], [rdp 3], knnCos, kfnCos⟩], 10000, knnCos, kfnCos⟩

/-- C88 with the ranges of cfg/cfg.go:139-163: a merge and two splits are enough for three datapoints. -/
example (p : Nat) : ∃ cm' p', runManagerCalls clk ([false, true, true].map (upkeep 1000 1000000 (-1) 100)) ⟨real, [], []⟩ p = .ok (⟨cm', [], []⟩, p') ∧
    (stored cm').Perm [rdp 1, rdp 1, rdp 3] ∧ Settled 1000 1000000 (-1) 100 cm'.centroids := by
  obtain ⟨cm', p', h1, h2, h3, _⟩ := C88_settles (fun p q h => Int.le_refl 0) (cm := real)
    ⟨by simp [real], ⟨prefabs_goodSearch.1, prefabs_goodSearch.2.1⟩, by simp [real], by simp [real, rdp]⟩
    C29_knnCos_findsAll (by simp [real, stored, rdp, Dead]) (a := 1000) (b := 1000000) (c := -1) (d := 100) (by decide) (by decide) [] [] [] [true, true]
    (by simp [real, stored]) p
  exact ⟨cm', p', h1, h2, h3⟩

end SettleExample

end Trypo
