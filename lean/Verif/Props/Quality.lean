import Verif.Proofs.Life
import Verif.Proofs.CentroidMean
import Verif.Props.Manager
import Verif.Spec.Float
import Verif.Proofs.Margin
import Mathlib.Algebra.BigOperators.Field

/-!
# C134: how tight the groups are

The yardstick of k-means: the sum, over all centroids, of the squared distances between the centroid's vector and the
vectors it holds.
-/

set_option linter.unusedSectionVars false
set_option linter.unusedVariables false

namespace Trypo
open GoFloat Spec

namespace Spec

/-- The squared distances from `v` to the vectors, added up. -/
def scatter (v : List ℝ) (xs : List (List ℝ)) : ℝ := (xs.map (sqDist v)).sum

/-- The k-means cost of what a manager holds. -/
def cost (m : Manager ℝ) : ℝ := (m.centroids.map fun c => scatter c.vec (c.dps.map fun d => d.vec)).sum

/-- The k-means cost of what a manager of float64 vectors holds, computed without rounding. -/
noncomputable def floatCost (m : Manager F64) : ℝ := (m.centroids.map fun c => scatter (vals c.vec) (c.dps.map fun d => vals d.vec)).sum

/-- Calls that only take away, recompute vectors, or split. -/
def ManagerCall.tidies {F : Type} : ManagerCall F → Prop
  | .add _ => False
  | .memTrim => False
  | .distributeInternal _ _ => False
  | .mergeCentroids _ => False
  | _ => True

end Spec

/-! ### The mean is the best single representative -/

theorem sqDist_eq : ∀ {n : Nat} {v w : List ℝ}, v.length = n → w.length = n →
    sqDist v w = ∑ j ∈ Finset.range n, (comp j v - comp j w) ^ 2
  | 0, v, w, hv, hw => by
    rw [List.length_eq_zero_iff.1 hv]; simp [sqDist]
  | n + 1, v, w, hv, hw => by
    obtain ⟨a, v, rfl⟩ := List.exists_cons_of_length_eq_add_one hv
    obtain ⟨b, w, rfl⟩ := List.exists_cons_of_length_eq_add_one hw
    have ih := sqDist_eq (n := n) (v := v) (w := w) (by simpa using hv) (by simpa using hw)
    rw [Finset.sum_range_succ']
    have e : sqDist (a :: v) (b :: w) = (a - b) ^ 2 + sqDist v w := by simp [sqDist]
    rw [e, ih]
    simp [comp, add_comm]

theorem scatter_nonneg (v : List ℝ) (xs : List (List ℝ)) : 0 ≤ scatter v xs := by
  refine List.sum_nonneg fun x hx => ?_
  obtain ⟨y, _, rfl⟩ := List.mem_map.1 hx
  exact sqDist_nonneg _ _

/-- The squared distances to any vector are those to the mean plus the count times the distance to the mean. -/
theorem scatter_mean {v m : List ℝ} {xs : List (List ℝ)} (hmean : IsMean m xs) (hm : v.length = m.length)
    (hx : ∀ x ∈ xs, x.length = m.length) : scatter v xs = scatter m xs + xs.length * sqDist v m := by
  have key : ∀ ys : List (List ℝ), (∀ x ∈ ys, x.length = m.length) → scatter v ys = scatter m ys +
      ∑ j ∈ Finset.range m.length, ((comp j v - comp j m) * ((ys.length : ℝ) * (comp j v + comp j m) - 2 * compSum j ys)) := by
    intro ys
    induction ys with
    | nil => intro _; simp [scatter, compSum]
    | cons y ys ih =>
      intro h
      have ih := ih fun x hx => h x (by simp [hx])
      have e1 : scatter v (y :: ys) = sqDist v y + scatter v ys := by simp [scatter]
      have e2 : scatter m (y :: ys) = sqDist m y + scatter m ys := by simp [scatter]
      rw [e1, e2, ih, sqDist_eq hm (h y (by simp)), sqDist_eq rfl (h y (by simp))]
      have e3 : ∑ j ∈ Finset.range m.length, (comp j v - comp j y) ^ 2 +
          ∑ j ∈ Finset.range m.length, ((comp j v - comp j m) * ((ys.length : ℝ) * (comp j v + comp j m) - 2 * compSum j ys)) =
          ∑ j ∈ Finset.range m.length, (comp j m - comp j y) ^ 2 + ∑ j ∈ Finset.range m.length,
            ((comp j v - comp j m) * (((y :: ys).length : ℝ) * (comp j v + comp j m) - 2 * compSum j (y :: ys))) := by
        rw [← Finset.sum_add_distrib, ← Finset.sum_add_distrib]
        refine Finset.sum_congr rfl fun j _ => ?_
        rw [compSum_cons, List.length_cons]
        push_cast
        ring
      linarith
  rw [key xs hx, sqDist_eq hm rfl, Finset.mul_sum]
  congr 1
  refine Finset.sum_congr rfl fun j _ => ?_
  have := hmean j
  rw [← this]
  ring

theorem scatter_sublist {v : List ℝ} {xs ys : List (List ℝ)} (h : xs.Sublist ys) : scatter v xs ≤ scatter v ys := by
  induction h with
  | slnil => exact le_refl _
  | cons a h ih =>
    have := sqDist_nonneg v a
    have e : ∀ l, scatter v (a :: l) = sqDist v a + scatter v l := by simp [scatter]
    rw [e]; linarith
  | cons_cons a h ih =>
    have e : ∀ l, scatter v (a :: l) = sqDist v a + scatter v l := by simp [scatter]
    rw [e, e]; linarith

theorem scatter_append (v : List ℝ) (xs ys : List (List ℝ)) : scatter v (xs ++ ys) = scatter v xs + scatter v ys := by
  simp [scatter]

/-- Fewer vectors, seen from their mean. -/
theorem scatter_le {v m : List ℝ} {xs ys : List (List ℝ)} (hs : xs.Sublist ys) (hmean : xs ≠ [] → IsMean m xs)
    (hx : ∀ x ∈ xs, x.length = m.length) (hy : ∀ y ∈ ys, y.length = v.length) : scatter m xs ≤ scatter v ys := by
  refine le_trans ?_ (scatter_sublist hs)
  by_cases h0 : xs = []
  · rw [h0]; simp [scatter]
  · obtain ⟨x, l, rfl⟩ := List.exists_cons_of_ne_nil h0
    have hl : v.length = m.length := by rw [← hx x (by simp), hy x (hs.subset (by simp))]
    rw [scatter_mean (hmean h0) hl hx]
    have := sqDist_nonneg v m
    have : (0 : ℝ) ≤ ((x :: l).length : ℝ) * sqDist v m := by positivity
    linarith

namespace Quality

/-- The cost of one centroid. -/
abbrev one (c : Centroid ℝ) : ℝ := scatter c.vec (c.dps.map fun d => d.vec)

/-- The cost of centroids. -/
abbrev all (cs : List (Centroid ℝ)) : ℝ := (cs.map one).sum

theorem one_nonneg (c : Centroid ℝ) : 0 ≤ one c := scatter_nonneg _ _

theorem all_nonneg (cs : List (Centroid ℝ)) : 0 ≤ all cs := by
  refine List.sum_nonneg fun x hx => ?_
  obtain ⟨c, _, rfl⟩ := List.mem_map.1 hx
  exact one_nonneg c

theorem one_le {c c' : Centroid ℝ} (hd : c.DimOK) (hd' : c'.DimOK) (hs : c'.dps.Sublist c.dps) (hm : c'.dps ≠ [] → c'.MeanInv) :
    one c' ≤ one c := by
  refine scatter_le (hs.map _) (fun h => hm (by simpa using h)) ?_ ?_
  · intro x hx; obtain ⟨d, h, rfl⟩ := List.mem_map.1 hx; exact hd' d h
  · intro x hx; obtain ⟨d, h, rfl⟩ := List.mem_map.1 hx; exact hd d h

theorem all_le {cs cs' : List (Centroid ℝ)} (h : List.Forall₂ (fun c c' => one c' ≤ one c) cs cs') : all cs' ≤ all cs := by
  induction h with
  | nil => exact le_refl _
  | cons h _ ih => simp only [all, List.map_cons, List.sum_cons] at ih ⊢; linarith

theorem all_sublist {cs cs' : List (Centroid ℝ)} (h : cs'.Sublist cs) : all cs' ≤ all cs := by
  induction h with
  | slnil => exact le_refl _
  | cons a h ih => have := one_nonneg a; simp only [all, List.map_cons, List.sum_cons] at ih ⊢; linarith
  | cons_cons a h ih => simp only [all, List.map_cons, List.sum_cons] at ih ⊢; linarith

theorem all_set {cs : List (Centroid ℝ)} {i : Nat} {c : Centroid ℝ} (hc : cs[i]? = some c) (c' : Centroid ℝ) :
    all (cs.set i c') + one c = all cs + one c' := by
  induction cs generalizing i with
  | nil => simp at hc
  | cons a cs ih =>
    cases i with
    | zero =>
      simp only [List.getElem?_cons_zero, Option.some.injEq] at hc
      subst hc
      simp only [List.set_cons_zero, all, List.map_cons, List.sum_cons]; ring
    | succ i =>
      have := ih (i := i) (by simpa using hc)
      simp only [List.set_cons_succ, all, List.map_cons, List.sum_cons] at this ⊢; linarith

/-- The vector is the mean, lengths agree, the searches are the manager's. -/
structure Tidy (knn kfn : Search ℝ) (p : Nat) (c : Centroid ℝ) : Prop where
  searches : c.knn = knn ∧ c.kfn = kfn
  dim : c.DimOK
  mean : c.MeanInv

theorem life (knn kfn : Search ℝ) : Life knn kfn (fun _ => True) (Tidy knn kfn) where
  mono := fun h _ => ⟨h.searches, h.dim, h.mean⟩
  first := fun {d} p _ => ⟨⟨rfl, rfl⟩, by intro x hx; simp at hx, by intro j; simp [compSum]⟩
  fresh := fun {p c} h => ⟨⟨rfl, rfl⟩, by intro x hx; simp at hx, by intro j; simp [compSum]⟩
  searches := fun h => h.searches
  dim := fun h => h.dim
  data := fun _ _ _ => trivial
  rm := fun {p c i d} h hi => ⟨h.searches, ((Centroid.Evolves.rm hi (.refl _)).dim h.dim).2, h.mean.rmP hi (h.dim d (List.mem_of_getElem? hi))⟩
  add := fun {p c d} h _ hl => ⟨h.searches, ((Centroid.Evolves.add hl (.refl _)).dim h.dim).2, h.mean.addRaw hl⟩
  move := fun {p c} h ht => by
    refine ⟨h.searches, fun e he => ?_, (C01_vecMean_mean _ ht).1⟩
    obtain ⟨v, hv, hl⟩ := (C01_vecMean_flag _).1.1 ht
    show e.vec.length = (vecMean _).1.length
    rw [(C01_vecMean_flag _).2 v hv]
    exact hl _ (List.mem_map.2 ⟨e, he, rfl⟩)

theorem shrinks_le {cm cm' : Manager ℝ} (h : Manager.Shrinks cm cm') (hd : ∀ c ∈ cm.centroids, c.DimOK)
    (hd' : ∀ c ∈ cm'.centroids, c.DimOK ∧ c.MeanInv) : cost cm' ≤ cost cm := by
  refine all_le (List.forall₂_iff_get.2 ⟨h.length.symm, fun i hi hi' => ?_⟩)
  obtain ⟨c', h1, h2⟩ := h.pointwise (List.getElem?_eq_getElem hi)
  have e : c' = cm'.centroids[i] := (List.getElem?_eq_some_iff.1 h1).2.symm
  subst e
  have := hd' _ (List.getElem_mem hi')
  exact one_le (hd _ (List.getElem_mem hi)) this.1 h2 fun _ => this.2

theorem split_le {knn kfn : Search ℝ} {tk : Nat → Int} {p p' q : Nat} {cm cm' : Manager ℝ} {i : Nat} {n : Int} {c c' nc : Centroid ℝ}
    (hd : c.DimOK) (h : Manager.SplitPost tk p cm i n c c' nc cm' p') (h' : Tidy knn kfn q c') (hn : Tidy knn kfn q nc) :
    one c' + one nc ≤ one c := by
  obtain ⟨pre, _, h1, h2, _⟩ := h.shape
  have hs : nc.dps.Sublist pre := by rw [h2]; exact (liveReads_sublist _ _ _).trans (liveReads_sublist _ _ _)
  have e : one c = scatter c.vec (pre.map fun d => d.vec) + scatter c.vec (c'.dps.map fun d => d.vec) := by
    unfold one; rw [h1, List.map_append, scatter_append]
  have hlen : ∀ d ∈ pre ++ c'.dps, d.vec.length = c.vec.length := fun d h => hd d (by rw [h1]; exact h)
  have a1 : one nc ≤ scatter c.vec (pre.map fun d => d.vec) := by
    refine scatter_le (hs.map _) (fun _ => hn.mean) ?_ ?_
    · intro x hx; obtain ⟨d, h, rfl⟩ := List.mem_map.1 hx; exact hn.dim d h
    · intro x hx; obtain ⟨d, h, rfl⟩ := List.mem_map.1 hx; exact hlen d (by simp [h])
  have a2 : one c' ≤ scatter c.vec (c'.dps.map fun d => d.vec) := by
    refine scatter_le (List.Sublist.refl _) (fun _ => h'.mean) ?_ ?_
    · intro x hx; obtain ⟨d, h, rfl⟩ := List.mem_map.1 hx; exact h'.dim d h
    · intro x hx; obtain ⟨d, h, rfl⟩ := List.mem_map.1 hx; exact hlen d (by simp [h])
  linarith

theorem splitLoop_le {knn kfn : Search ℝ} {tk : Nat → Int} (pred : Centroid ℝ → Bool) : ∀ (is : List Nat) (cm : Manager ℝ)
    (acc : List (Centroid ℝ)) (p : Nat), cm.WF → Life.Keeps knn kfn (Tidy knn kfn) p cm →
    Go.wlp (cm.splitLoop tk pred is acc) (fun r _ => all r.2.centroids + all r.1 ≤ all cm.centroids + all acc) p
  | [], cm, acc, p, _, _ => by
    unfold Manager.splitLoop
    exact Go.wlp_pure (le_refl _)
  | i :: is, cm, acc, p, hw, hk => by
    unfold Manager.splitLoop
    refine Go.wlp_bind (Go.wlp_idx fun c hc => ?_)
    split
    · exact splitLoop_le pred is cm acc p hw hk
    · by_cases h2 : 2 ≤ c.dps.length
      · have hwp := Go.wlp_of_wp (Manager.wp_splitCentroid (tk := tk) hw hc (n := ((c.lenDP / 2 : Nat) : Int)) (by unfold Centroid.lenDP; omega) p)
        have hl := (life knn kfn).splitCentroid (tk := tk) hk i ((c.lenDP / 2 : Nat) : Int)
        refine Go.wlp_bind fun r q hr => ?_
        obtain ⟨c', nc, hr1, hsp⟩ := hwp r q hr
        obtain ⟨_, hk', hn⟩ := hl r q hr
        simp only [hr1]
        refine Go.wlp_mono (splitLoop_le pred is r.2 (acc ++ [nc]) q (hsp.wf hw hc) hk') fun s _ hs => hs.trans ?_
        have hle := split_le (hk.all c (List.mem_of_getElem? hc)).dim hsp
          (hk'.all c' (by rw [hsp.eq]; exact List.mem_set (List.getElem?_eq_some_iff.1 hc).1 _)) (hn nc hr1)
        have := all_set hc c'
        have e : r.2.centroids = cm.centroids.set i c' := hsp.same.2.2
        rw [e]
        simp only [all, List.map_append, List.map_cons, List.map_nil, List.sum_append, List.sum_cons, List.sum_nil] at this ⊢
        linarith
      · have hz : ((c.lenDP / 2 : Nat) : Int) ≤ 0 := by unfold Centroid.lenDP; omega
        have e : cm.splitCentroid tk i ((c.lenDP / 2 : Nat) : Int) = pure (none, cm) := by
          unfold Manager.splitCentroid
          simp only [hc]
          rw [if_pos hz]
        rw [e]
        refine Go.wlp_bind (Go.wlp_pure ?_)
        exact splitLoop_le pred is cm acc p hw hk

theorem keeps_of_run {tk : Nat → Int} (hm : MonoClock tk) (initVec : List ℝ) (initCap threshold : Int) {knn kfn : Search ℝ}
    (hk : GoodSearch knn) (hf : GoodSearch kfn) (os : List (ManagerCall ℝ)) (ho : ∀ o ∈ os, o.valid ∧ o ≠ .memTrim) {p p1 : Nat}
    {w : ManagerWorld ℝ} (h : runManager tk initVec initCap threshold knn kfn os p = .ok (w, p1)) :
    Life.Keeps knn kfn (Tidy knn kfn) p1 w.cm :=
  ((life knn kfn).run hk hf hm initVec initCap threshold os p (fun o h => ⟨(ho o h).2, fun _ _ => trivial⟩) w p1 h).2

theorem wp_moveVector_le {tk : Nat → Int} (hm : MonoClock tk) {cm : Manager ℝ} (hw : cm.WF) (p : Nat) :
    Go.wp (cm.moveVector tk) (fun r _ => cost r.2 ≤ cost cm) p := by
  have h1 : Go.wp (cm.moveVector tk) (fun r _ => ∀ c ∈ r.2.centroids, c.dps ≠ [] → c.MeanInv) p := by
    unfold Manager.moveVector
    simp only [Go.wp_bind]
    refine Go.wp_mono (Manager.wp_moveAll_mean hm cm.centroids p fun c hc => (hw.dim c hc).2) fun cs q hq => ?_
    rw [Go.wp_ite]
    exact ⟨fun _ => by rw [Go.wp_pure]; exact hq, fun _ => by rw [Go.wp_pure]; exact hq⟩
  refine Go.wp_mono (Go.wp_and h1 (Manager.wp_moveVector hm hw p)) fun r q hr => ?_
  obtain ⟨hmean, heff, _, hs, _⟩ := hr
  refine all_le (List.forall₂_iff_get.2 ⟨hs.length_eq, fun i hi hi' => ?_⟩)
  exact one_le (hw.dim _ (List.getElem_mem hi)).2 (heff.wf.dim _ (List.getElem_mem hi')).2 ((List.forall₂_iff_get.1 hs).2 i hi hi')
    fun hne => hmean _ (List.getElem_mem hi') hne

theorem addRaw_cost {c : Centroid ℝ} (hm : c.MeanInv) (hd : c.DimOK) {d : DataPoint ℝ} (hl : d.vec.length = c.vec.length) :
    one (c.addRaw d) = one c + (c.dps.length : ℝ) / (c.dps.length + 1) * sqDist c.vec d.vec := by
  have hm' := hm.addRaw hl
  have hlen : (c.addRaw d).vec.length = c.vec.length := Centroid.addRaw_vec_length hl
  have hd' := ((Centroid.Evolves.add hl (.refl _)).dim hd).2
  have hn : (c.dps.length : ℝ) + 1 ≠ 0 := by positivity
  have h := scatter_mean (v := c.vec) hm' hlen.symm (by
    intro x hx; obtain ⟨e, he, rfl⟩ := List.mem_map.1 hx; exact hd' e he)
  have e1 : (c.addRaw d).dps = c.dps ++ [d] := rfl
  have e2 : sqDist c.vec (c.addRaw d).vec = sqDist c.vec d.vec / ((c.dps.length : ℝ) + 1) ^ 2 := by
    rw [sqDist_eq rfl hlen, sqDist_eq rfl hl, Finset.sum_div]
    refine Finset.sum_congr rfl fun j _ => ?_
    have e := hm' j
    have e' := hm j
    rw [e1, List.map_append, compSum_append] at e
    simp only [List.map_cons, List.map_nil, List.length_append, List.length_map, List.length_cons, List.length_nil] at e e'
    rw [← e'] at e
    have e3 : compSum j [d.vec] = comp j d.vec := by simp [compSum]
    rw [e3] at e
    push_cast at e
    have e4 : comp j (c.addRaw d).vec = (comp j c.vec * c.dps.length + comp j d.vec) / (c.dps.length + 1) := by
      rw [eq_div_iff hn]; linarith
    rw [e4]
    field_simp
    ring
  have e5 : scatter c.vec ((c.addRaw d).dps.map fun d => d.vec) = one c + sqDist c.vec d.vec := by
    rw [e1, List.map_append, scatter_append]
    simp [one, scatter]
  rw [e5, e2, e1] at h
  simp only [List.length_map, List.length_append, List.length_cons, List.length_nil] at h
  have e6 : one (c.addRaw d) = scatter (c.addRaw d).vec ((c.dps ++ [d]).map fun d => d.vec) := rfl
  rw [e6]
  have e7 : one c + sqDist c.vec d.vec = scatter (c.addRaw d).vec ((c.dps ++ [d]).map fun d => d.vec) +
      sqDist c.vec d.vec / ((c.dps.length : ℝ) + 1) := by
    rw [h]; push_cast; field_simp
  have e8 : sqDist c.vec d.vec - sqDist c.vec d.vec / ((c.dps.length : ℝ) + 1) =
      (c.dps.length : ℝ) / (c.dps.length + 1) * sqDist c.vec d.vec := by field_simp; ring
  linarith

theorem call_le {tk : Nat → Int} (hm : MonoClock tk) {knn kfn : Search ℝ} (hk : GoodSearch knn) (hf : GoodSearch kfn)
    {w : ManagerWorld ℝ} (hw : w.cm.WF) {p : Nat} (h : Life.Keeps knn kfn (Tidy knn kfn) p w.cm) {o : ManagerCall ℝ} (hv : o.valid)
    (ht : o.tidies) : Go.wp (o.run tk w) (fun w' _ => cost w'.cm ≤ cost w.cm) p := by
  obtain ⟨w', q, hr, acc, out, _, _, heff, hshape, _⟩ := Go.wp_iff.1 (Manager.wp_managerCall hm w hw o hv p)
  refine Go.wp_iff.2 ⟨w', q, hr, ?_⟩
  have hne : o ≠ .memTrim := by rintro rfl; exact ht
  have hd : ∀ c ∈ w.cm.centroids, c.DimOK := fun c hc => (hw.dim c hc).2
  have hkeep := ((life knn kfn).call hk hf hm o h hne (fun _ _ => trivial) w' q hr).2
  have hall : ∀ c ∈ w'.cm.centroids, c.DimOK ∧ c.MeanInv := fun c hc => ⟨(hkeep.all c hc).dim, (hkeep.all c hc).mean⟩
  cases o with
  | add d => exact ht.elim
  | drainUnordered n ord => exact shrinks_le hshape hd hall
  | drainOrdered n ord => exact shrinks_le hshape hd hall
  | expire => exact shrinks_le hshape hd hall
  | memTrim => exact ht.elim
  | moveVector =>
    refine all_le (List.forall₂_iff_get.2 ⟨hshape.1.length_eq, fun i hi hi' => ?_⟩)
    have := hall _ (List.getElem_mem hi')
    exact one_le (hd _ (List.getElem_mem hi)) this.1 ((List.forall₂_iff_get.1 hshape.1).2 i hi hi') fun _ => this.2
  | distributeInternal n ord => exact ht.elim
  | knnLookup v k drain => exact shrinks_le hshape hd hall
  | nearestCentroids v n drain =>
    obtain ⟨removed, hs⟩ := hshape
    exact all_sublist hs.sublist
  | splitCentroids pred =>
    have key : Go.wlp (ManagerCall.run tk w (.splitCentroids pred)) (fun w' _ => cost w'.cm ≤ cost w.cm) p := by
      unfold ManagerCall.run Manager.splitCentroids
      refine Go.wlp_bind (Go.wlp_bind (Go.wlp_mono (splitLoop_le pred _ w.cm [] p hw h) fun r q hr => Go.wlp_pure (Go.wlp_pure ?_)))
      show all (r.2.centroids ++ r.1) ≤ all w.cm.centroids
      simp only [all, List.map_append, List.sum_append, List.map_nil, List.sum_nil, add_zero] at hr ⊢
      exact hr
    exact key w' q hr
  | mergeCentroids pred => exact ht.elim

theorem add_le {tk : Nat → Int} (hm : MonoClock tk) {knn kfn : Search ℝ} (hk : GoodSearch knn) (hf : GoodSearch kfn)
    {w : ManagerWorld ℝ} (hw : w.cm.WF) {p : Nat} (h : Life.Keeps knn kfn (Tidy knn kfn) p w.cm) (d : DataPoint ℝ) :
    Go.wp ((ManagerCall.add d).run tk w) (fun w' _ => cost w'.cm ≤ cost w.cm ∨ ∃ c ∈ w.cm.centroids, d.vec.length = c.vec.length ∧
      cost w'.cm ≤ cost w.cm + (c.dps.length : ℝ) / (c.dps.length + 1) * sqDist c.vec d.vec) p := by
  obtain ⟨w', q, hr, acc, out, _, _, heff, hshape, _⟩ := Go.wp_iff.1 (Manager.wp_managerCall hm w hw (.add d) trivial p)
  refine Go.wp_iff.2 ⟨w', q, hr, ?_⟩
  have hkeep := ((life knn kfn).call hk hf hm (.add d) h (by simp) (fun _ _ => trivial) w' q hr).2
  rcases hshape with he | hshape
  · rw [he]; exact .inl (le_refl _)
  generalize hcm' : w'.cm = cm' at hshape hkeep
  cases hshape with
  | @first p' c' h0 hd hs hdim hp =>
    left
    have e : one c' ≤ 0 := by
      rcases hd with hd | ⟨hd, _⟩
      · have hmean := (hkeep.all c' (by simp)).mean
        have e := scatter_mean (v := d.vec) hmean hdim.2.symm (by simp [hd, hdim.2])
        rw [hd] at e
        have e1 : scatter d.vec [d.vec] = 0 := by
          have : sqDist d.vec d.vec = 0 := by rw [sqDist_eq rfl rfl]; simp
          simp [scatter, this]
        simp only [List.map_cons, List.map_nil, List.length_cons, List.length_nil] at e
        rw [e1] at e
        have := sqDist_nonneg d.vec c'.vec
        have e2 : one c' = scatter c'.vec [d.vec] := by simp [one, hd]
        rw [e2]
        push_cast at e
        linarith
      · simp [one, hd, scatter]
    have e0 : cost w.cm = 0 := by simp [cost, h0]
    rw [e0]
    simpa [cost] using e
  | @plain p' j c hc hl ht hp =>
    right
    have hcm := List.mem_of_getElem? hc
    refine ⟨c, hcm, hl, ?_⟩
    have e := all_set hc (c.addRaw d)
    have e' := addRaw_cost (h.all c hcm).mean (h.all c hcm).dim hl
    show all ((w.cm.upd j c.vec (c.addRaw d)).centroids) ≤ all w.cm.centroids + _
    rw [Manager.upd_centroids]
    linarith
  | @split p1 p' j c c' nc cm1 hc hl ht ht2 hp hsp =>
    right
    have hcm := List.mem_of_getElem? hc
    refine ⟨c, hcm, hl, ?_⟩
    have hlt := (List.getElem?_eq_some_iff.1 hc).1
    have e := addRaw_cost (h.all c hcm).mean (h.all c hcm).dim hl
    have hd' := ((Centroid.Evolves.add hl (.refl _)).dim (h.all c hcm).dim).2
    have hset : cm1.centroids = w.cm.centroids.set j c' := by
      rw [hsp.same.2.2, Manager.upd_centroids, List.set_set]
    have hle := split_le (knn := knn) (kfn := kfn) hd' hsp (hkeep.all c' (by simp [hset, List.mem_set hlt]))
      (hkeep.all nc (by simp))
    have e2 := all_set hc c'
    show all (cm1.centroids ++ [nc]) ≤ all w.cm.centroids + _
    rw [hset]
    simp only [all, List.map_append, List.map_cons, List.map_nil, List.sum_append, List.sum_cons, List.sum_nil] at e2 ⊢
    linarith

end Quality
open Quality

/-- C134 for the calls that only take data away, recompute vectors or split: after any history without `MemTrim`, such a call
does not raise the k-means cost. -/
theorem C134_tidying_partial {tk : Nat → Int} (hm : MonoClock tk) (initVec : List ℝ) {initCap : Int} (hcap : 0 ≤ initCap)
    (threshold : Int) {knn kfn : Search ℝ} (hk : GoodSearch knn) (hf : GoodSearch kfn) (os : List (ManagerCall ℝ))
    (ho : ∀ o ∈ os, o.valid ∧ o ≠ .memTrim) {o : ManagerCall ℝ} (hv : o.valid) (ht : o.tidies) (p : Nat) :
    ∃ w p1 w' p2, runManager tk initVec initCap threshold knn kfn os p = .ok (w, p1) ∧ o.run tk w p1 = .ok (w', p2) ∧
      cost w'.cm ≤ cost w.cm := by
  obtain ⟨w, p1, hr, hok⟩ := C19_manager_consistent hm initVec hcap threshold hk hf os (fun o h => (ho o h).1) p
  obtain ⟨w', p2, hr', hle⟩ := Go.wp_iff.1 (call_le hm hk hf hok.wf (keeps_of_run hm initVec initCap threshold hk hf os ho hr) hv ht)
  exact ⟨w, p1, w', p2, hr, hr', hle⟩

/-- C134: what offering a datapoint may cost. After any history without `MemTrim` the cost grows by at most `n / (n + 1)` times
the squared distance to the vector of one of the centroids, `n` being what that centroid holds. -/
theorem C134_add {tk : Nat → Int} (hm : MonoClock tk) (initVec : List ℝ) {initCap : Int} (hcap : 0 ≤ initCap)
    (threshold : Int) {knn kfn : Search ℝ} (hk : GoodSearch knn) (hf : GoodSearch kfn) (os : List (ManagerCall ℝ))
    (ho : ∀ o ∈ os, o.valid ∧ o ≠ .memTrim) (d : DataPoint ℝ) (p : Nat) :
    ∃ w p1 w' p2, runManager tk initVec initCap threshold knn kfn os p = .ok (w, p1) ∧ (ManagerCall.add d).run tk w p1 = .ok (w', p2) ∧
      (cost w'.cm ≤ cost w.cm ∨ ∃ c ∈ w.cm.centroids, d.vec.length = c.vec.length ∧
        cost w'.cm ≤ cost w.cm + (c.dps.length : ℝ) / (c.dps.length + 1) * sqDist c.vec d.vec) := by
  obtain ⟨w, p1, hr, hok⟩ := C19_manager_consistent hm initVec hcap threshold hk hf os (fun o h => (ho o h).1) p
  obtain ⟨w', p2, hr', hle⟩ := Go.wp_iff.1 (add_le hm hk hf hok.wf (keeps_of_run hm initVec initCap threshold hk hf os ho hr) d)
  exact ⟨w, p1, w', p2, hr, hr', hle⟩

/-- C134 for `MoveVector` on any consistent manager, whatever its vectors are. -/
theorem C134_moveVector {tk : Nat → Int} (hm : MonoClock tk) {cm : Manager ℝ} (hok : ManagerOK cm) (p : Nat) :
    ∃ b cm' p', cm.moveVector tk p = .ok ((b, cm'), p') ∧ cost cm' ≤ cost cm := by
  obtain ⟨r, p', h, hle⟩ := Go.wp_iff.1 (wp_moveVector_le hm hok.wf p)
  exact ⟨r.1, r.2, p', h, hle⟩

/-- The hypotheses hold for the searches of the package: splitting after three additions. -/
example : ∃ w p1 w' p2, runManager (fun _ => 0) [(0 : ℝ), 0] 10 100 knnCos kfnCos
      [.add ⟨[2, 0], [], 0, false⟩, .add ⟨[0, 2], [], 0, false⟩, .add ⟨[1, 1], [], 0, false⟩] 0 = .ok (w, p1) ∧
      (ManagerCall.splitCentroids fun _ => true).run (fun _ => 0) w p1 = .ok (w', p2) ∧ cost w'.cm ≤ cost w.cm :=
  C134_tidying_partial (fun _ _ _ => Int.le_refl _) _ (by decide) _ prefabs_goodSearch.1 prefabs_goodSearch.2.1 _
    (by simp [ManagerCall.valid]) (o := .splitCentroids fun _ => true) trivial trivial 0

/-- A centroid that sits at 0 and holds 1 and 3 costs 10; from their mean it is 2. -/
example : scatter [0] [[1], [3]] = 10 ∧ scatter [2] [[1], [3]] = 2 ∧ IsMean [2] [[1], [3]] := by
  refine ⟨by norm_num [scatter, sqDist], by norm_num [scatter, sqDist], fun j => ?_⟩
  cases j with
  | zero => norm_num [comp, compSum]
  | succ j => simp [comp, compSum]

/-! ### The calls that do make it worse -/

namespace QualityExample

/-- A datapoint that does not expire. -/
def pt (x y : Int) : DataPoint F64 := ⟨[.ofInt x, .ofInt y], [], 0, false⟩

/-- A vector. -/
def iv (x y : Int) : List F64 := [.ofInt x, .ofInt y]

/-- Two datapoints far out and two near the origin. -/
def four : List (ManagerCall F64) := [.add (pt 2 (-21)), .add (pt 2 (-21)), .add (pt 2 0), .add (pt 0 2)]

/-- The vectors and what they stand for. -/
def groups (m : Manager F64) : List (List F64 × List (List F64)) := m.centroids.map fun c => (c.vec, c.dps.map fun d => d.vec)

theorem floatCost_groups (m : Manager F64) :
    floatCost m = ((groups m).map fun g => scatter (vals g.1) (g.2.map vals)).sum := by
  simp [floatCost, groups, Function.comp_def]

set_option exponentiation.threshold 2200 in
theorem val_ofInt_small {z : Int} (hz : z.natAbs < 2 ^ 53) : F64.val (F64.ofInt z) = z := by
  have hu' : F64.UNIT = 2 ^ 1074 := by unfold F64.UNIT; rfl
  have hu : (F64.UNIT : ℝ) ≠ 0 := by
    have : 0 < F64.UNIT := by rw [hu']; exact Nat.two_pow_pos _
    exact_mod_cast this.ne'
  have gen : ∀ e, z.natAbs * 2 ^ e < 2 ^ (e + 53) := by
    intro e
    rw [Nat.pow_add, Nat.mul_comm]
    exact Nat.mul_lt_mul_of_pos_left hz (Nat.two_pow_pos _)
  have h1 : z.natAbs * F64.UNIT < 2 ^ (1074 + 53) := gen 1074
  have e : F64.ofInt z = .fin (decide (z < 0)) (z.natAbs * F64.UNIT) := by
    unfold F64.ofInt
    have ht : z.natAbs * F64.UNIT < F64.TOP := lt_of_lt_of_le h1 (Nat.pow_le_pow_right (by decide) (by decide))
    have hd : 2 ^ 1074 ∣ z.natAbs * F64.UNIT := by rw [hu']; exact Nat.dvd_mul_left _ _
    exact F64.mk_exact_margin _ h1 hd ht
  have e2 : F64.key (decide (z < 0)) (z.natAbs * F64.UNIT) = z * (F64.UNIT : Int) := by
    unfold F64.key
    generalize F64.UNIT = U
    by_cases h : z < 0
    · rw [if_pos (by simpa using h)]
      push_cast
      rw [abs_of_neg h]; ring
    · rw [if_neg (by simpa using h)]
      push_cast
      rw [abs_of_nonneg (by omega)]
  rw [e]
  show ((F64.key (decide (z < 0)) (z.natAbs * F64.UNIT) : Int) : ℝ) / (F64.UNIT : ℝ) = z
  rw [e2]
  push_cast
  exact mul_div_cancel_right₀ _ hu

theorem vals_iv {a b : Int} (ha : a.natAbs < 2 ^ 53) (hb : b.natAbs < 2 ^ 53) : vals (iv a b) = [(a : ℝ), (b : ℝ)] := by
  simp [vals, iv, val_ofInt_small ha, val_ofInt_small hb]

/-- What the manager holds after the four additions. -/
theorem grown : (runManager (fun _ => 0) (iv 0 0) 10 4 knnCos kfnCos four 0).map (fun r => (groups r.1.cm, r.1.cm.portionEntries 1)) =
    .ok ([(iv 1 1, [iv 2 0, iv 0 2]), (iv 2 (-21), [iv 2 (-21), iv 2 (-21)])], [(0, 1)]) := by decide +kernel

/-- What it holds after one round of redistribution. -/
theorem moved : (runManager (fun _ => 0) (iv 0 0) 10 4 knnCos kfnCos four 0).bind
      (fun r => (r.1.cm.distributeInternal (fun _ => 0) id 1 r.2).map (fun s => groups s.1)) =
    .ok [(iv 0 2, [iv 0 2]), (iv 2 (-14), [iv 2 (-21), iv 2 (-21), iv 2 0])] := by decide +kernel

/-- One centroid with two datapoints, before and after `MemTrim`. -/
theorem trimmed : (runManager (fun _ => 0) (iv 0 0) 10 10 knnCos kfnCos [.add (pt 2 0), .add (pt 0 2)] 0).bind
      (fun r => (r.1.cm.memTrim (fun _ => 0) r.2).map (fun s => (groups r.1.cm, groups s.1))) =
    .ok ([(iv 1 1, [iv 2 0, iv 0 2])], [(iv 0 2, [iv 2 0, iv 0 2])]) := by decide +kernel

theorem before : ∀ m : Manager F64, groups m = [(iv 1 1, [iv 2 0, iv 0 2]), (iv 2 (-21), [iv 2 (-21), iv 2 (-21)])] → floatCost m = 4 := by
  intro m h
  rw [floatCost_groups, h]
  simp only [List.map_cons, List.map_nil, vals_iv (a := 1) (b := 1) (by decide) (by decide), vals_iv (a := 2) (b := 0) (by decide) (by decide),
    vals_iv (a := 0) (b := 2) (by decide) (by decide), vals_iv (a := 2) (b := -21) (by decide) (by decide), scatter, sqDist]
  norm_num

theorem after : ∀ m : Manager F64, groups m = [(iv 0 2, [iv 0 2]), (iv 2 (-14), [iv 2 (-21), iv 2 (-21), iv 2 0])] → floatCost m = 294 := by
  intro m h
  rw [floatCost_groups, h]
  simp only [List.map_cons, List.map_nil, vals_iv (a := 2) (b := -14) (by decide) (by decide), vals_iv (a := 2) (b := 0) (by decide) (by decide),
    vals_iv (a := 0) (b := 2) (by decide) (by decide), vals_iv (a := 2) (b := -21) (by decide) (by decide), scatter, sqDist]
  norm_num

theorem order_one {m : Manager F64} {n : Int} {e : Nat × Nat} (h : m.portionEntries n = [e]) {ord : List (Nat × Nat) → List (Nat × Nat)}
    (ho : MapOrder ord) (tk : Nat → Int) : m.distributeInternal tk ord n = m.distributeInternal tk id n := by
  have : ord (m.portionEntries n) = m.portionEntries n := by
    have hp := ho (m.portionEntries n)
    rw [h] at hp ⊢
    exact List.perm_singleton.1 hp
  unfold Manager.distributeInternal Manager.distribute
  simp only [this, id]

end QualityExample

open QualityExample in
/-- C134 is refuted for `DistributeDataPointsInternal`: four datapoints, of which the automatic split has made two tight groups with a
total cost of 4. One round of redistribution moves a datapoint into the other group, and the cost is 294 - whatever the order of the map. -/
theorem C134_refuted_distribute : ∃ w p, runManager (fun _ => 0) (iv 0 0) 10 4 knnCos kfnCos four 0 = .ok (w, p) ∧ floatCost w.cm = 4 ∧
    ∀ ord, MapOrder ord → ∃ w' p', (ManagerCall.distributeInternal 1 ord).run (fun _ => 0) w p = .ok (w', p') ∧ floatCost w'.cm = 294 := by
  have h1 := grown
  have h2 := moved
  cases hr : runManager (fun _ => 0) (iv 0 0) 10 4 knnCos kfnCos four 0 with
  | error e => rw [hr] at h1; cases h1
  | ok r =>
    rw [hr] at h1 h2
    obtain ⟨h1, h3⟩ := Prod.mk.inj (Except.ok.inj h1)
    refine ⟨r.1, r.2, rfl, before _ h1, fun ord ho => ?_⟩
    have e := order_one h3 ho (fun _ => 0)
    have h2 : (r.1.cm.distributeInternal (fun _ => 0) id 1 r.2).map (fun s => groups s.1) = _ := h2
    cases hd : r.1.cm.distributeInternal (fun _ => 0) id 1 r.2 with
    | error e => rw [hd] at h2; cases h2
    | ok s =>
      rw [hd] at h2
      refine ⟨{ r.1 with cm := s.1 }, s.2, ?_, after _ (Except.ok.inj h2)⟩
      show (Manager.distributeInternal (fun _ => 0) ord r.1.cm 1 r.2).bind _ = _
      rw [e, hd]
      rfl

open QualityExample in
/-- C134 is refuted for `MemTrim`: it leaves both datapoints of the only centroid where they are, but the vector at one of them, and
the cost goes from 4 to 8. -/
theorem C134_refuted_memTrim : ∃ w p w' p', runManager (fun _ => 0) (iv 0 0) 10 10 knnCos kfnCos [.add (pt 2 0), .add (pt 0 2)] 0 = .ok (w, p) ∧
    (ManagerCall.memTrim).run (fun _ => 0) w p = .ok (w', p') ∧ floatCost w.cm = 4 ∧ floatCost w'.cm = 8 := by
  have h := trimmed
  cases hr : runManager (fun _ => 0) (iv 0 0) 10 10 knnCos kfnCos [.add (pt 2 0), .add (pt 0 2)] 0 with
  | error e => rw [hr] at h; cases h
  | ok r =>
    rw [hr] at h
    have h : (r.1.cm.memTrim (fun _ => 0) r.2).map (fun s => (groups r.1.cm, groups s.1)) = _ := h
    cases hd : r.1.cm.memTrim (fun _ => 0) r.2 with
    | error e => rw [hd] at h; cases h
    | ok s =>
      rw [hd] at h
      obtain ⟨h1, h2⟩ := Prod.mk.inj (Except.ok.inj h)
      refine ⟨r.1, r.2, { r.1 with cm := s.1 }, s.2, rfl, ?_, ?_, ?_⟩
      · show (r.1.cm.memTrim (fun _ => 0) r.2).bind _ = _
        rw [hd]
        rfl
      · rw [floatCost_groups, h1]
        simp only [List.map_cons, List.map_nil, vals_iv (a := 1) (b := 1) (by decide) (by decide), vals_iv (a := 2) (b := 0) (by decide) (by decide),
          vals_iv (a := 0) (b := 2) (by decide) (by decide), scatter, sqDist]
        norm_num
      · rw [floatCost_groups, h2]
        simp only [List.map_cons, List.map_nil, vals_iv (a := 2) (b := 0) (by decide) (by decide),
          vals_iv (a := 0) (b := 2) (by decide) (by decide), scatter, sqDist]
        norm_num

set_option exponentiation.threshold 2200 in
open QualityExample in
/-- Splitting, on the other hand, takes the same four datapoints in one centroid from 489 to 4. -/
example : ∃ w p w' p', runManager (fun _ => 0) (iv 0 0) 10 10 knnCos kfnCos four 0 = .ok (w, p) ∧
    (ManagerCall.splitCentroids fun _ => true).run (fun _ => 0) w p = .ok (w', p') ∧ floatCost w.cm = 489 ∧ floatCost w'.cm = 4 := by
  have h : (runManager (fun _ => 0) (iv 0 0) 10 10 knnCos kfnCos four 0).bind
      (fun r => (r.1.cm.splitCentroids (fun _ => 0) (fun _ => true) r.2).map (fun s => (groups r.1.cm, groups s.1))) =
    .ok ([([.div (.ofInt 3) (.ofInt 2), .ofInt (-10)], [iv 2 (-21), iv 2 (-21), iv 2 0, iv 0 2])],
      [(iv 1 1, [iv 2 0, iv 0 2]), (iv 2 (-21), [iv 2 (-21), iv 2 (-21)])]) := by decide +kernel
  cases hr : runManager (fun _ => 0) (iv 0 0) 10 10 knnCos kfnCos four 0 with
  | error e => rw [hr] at h; cases h
  | ok r =>
    rw [hr] at h
    have h : (r.1.cm.splitCentroids (fun _ => 0) (fun _ => true) r.2).map (fun s => (groups r.1.cm, groups s.1)) = _ := h
    cases hd : r.1.cm.splitCentroids (fun _ => 0) (fun _ => true) r.2 with
    | error e => rw [hd] at h; cases h
    | ok s =>
      rw [hd] at h
      obtain ⟨h1, h2⟩ := Prod.mk.inj (Except.ok.inj h)
      refine ⟨r.1, r.2, { r.1 with cm := s.1 }, s.2, rfl, ?_, ?_, before _ h2⟩
      · show (r.1.cm.splitCentroids (fun _ => 0) (fun _ => true) r.2).bind _ = _
        rw [hd]
        rfl
      · have e : vals [.div (.ofInt 3) (.ofInt 2), .ofInt (-10)] = [3 / 2, -10] := by
          have h3 : F64.div (.ofInt 3) (.ofInt 2) = .fin false (3 * 2 ^ 1073) := by decide +kernel
          have h4 : F64.val (.fin false (3 * 2 ^ 1073)) = 3 / 2 := by
            show (((3 * 2 ^ 1073 : Nat) : Int) : ℝ) / ((2 ^ 1074 : Nat) : ℝ) = 3 / 2
            norm_num
          have h5 := val_ofInt_small (z := -10) (by decide)
          simp only [vals, List.map_cons, List.map_nil, h3, h4, h5]
          norm_num
        rw [floatCost_groups, h1]
        simp only [List.map_cons, List.map_nil, e, vals_iv (a := 2) (b := 0) (by decide) (by decide),
          vals_iv (a := 0) (b := 2) (by decide) (by decide), vals_iv (a := 2) (b := -21) (by decide) (by decide), scatter, sqDist]
        norm_num

end Trypo
