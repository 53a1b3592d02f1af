import Verif.Model.Centroid
import Verif.Spec.Bag
import Verif.Spec.Search
import Verif.Proofs.PermTac
import Mathlib.Data.List.Basic
import Mathlib.Data.Option.Basic
import Mathlib.Order.Basic

/-!
# Lemmas about pkg/kmeans/centroid
-/

set_option linter.unusedSectionVars false
set_option linter.unusedVariables false

namespace Trypo
open GoFloat Spec

variable {F : Type} [GoFloat F]

/-! ### Expiry -/

theorem expiredAt_iff (t : Int) (d : DataPoint F) : d.expiredAt t = true ↔ Dead t d := by
  simp [DataPoint.expiredAt, Dead]

theorem expiredAt_false_iff (t : Int) (d : DataPoint F) : d.expiredAt t = false ↔ ¬ Dead t d := by
  rw [← expiredAt_iff]; simp

theorem Spec.Dead.mono {tk : Nat → Int} (hm : MonoClock tk) {p q : Nat} (h : p ≤ q) {d : DataPoint F}
    (hd : Dead (tk p) d) : Dead (tk q) d := ⟨hd.1, Int.lt_of_lt_of_le hd.2 (hm p q h)⟩

/-! ### Conservation -/

theorem Spec.Conserved.refl (t : Int) (l : List (DataPoint F)) : Conserved t l l [] := ⟨[], by simp, by simp⟩

theorem Spec.Conserved.of_perm {t : Int} {l l' out : List (DataPoint F)} (h : (l' ++ out).Perm l) : Conserved t l l' out :=
  ⟨[], by simpa using h, by simp⟩

theorem Spec.Conserved.perm_after {t : Int} {l a a' out : List (DataPoint F)} (h : Conserved t l a out) (hp : a.Perm a') :
    Conserved t l a' out := by
  obtain ⟨lost, h1, h2⟩ := h
  exact ⟨lost, ((hp.symm.append_right out).append_right lost).trans h1, h2⟩

theorem Spec.Conserved.perm_before {t : Int} {l l' a out : List (DataPoint F)} (h : Conserved t l a out) (hp : l.Perm l') :
    Conserved t l' a out := by
  obtain ⟨lost, h1, h2⟩ := h
  exact ⟨lost, h1.trans hp, h2⟩

theorem Spec.Conserved.perm_out {t : Int} {l a o o' : List (DataPoint F)} (h : Conserved t l a o) (hp : o.Perm o') :
    Conserved t l a o' := by
  obtain ⟨lost, h1, h2⟩ := h
  exact ⟨lost, ((hp.symm.append_left a).append_right lost).trans h1, h2⟩

theorem Spec.Conserved.mono {tk : Nat → Int} (hm : MonoClock tk) {p q : Nat} (hpq : p ≤ q)
    {l a o : List (DataPoint F)} (h : Conserved (tk p) l a o) : Conserved (tk q) l a o := by
  obtain ⟨lost, h1, h2⟩ := h
  exact ⟨lost, h1, fun d hd => (h2 d hd).mono hm hpq⟩

theorem Spec.Conserved.trans {t : Int} {l a b o o' : List (DataPoint F)} (h : Conserved t l a o) (h' : Conserved t a b o') :
    Conserved t l b (o ++ o') := by
  obtain ⟨x, h1, h2⟩ := h
  obtain ⟨y, h3, h4⟩ := h'
  refine ⟨y ++ x, ?_, fun d hd => ?_⟩
  · permc [h1, h3]
  · rcases List.mem_append.1 hd with hd | hd
    · exact h4 d hd
    · exact h2 d hd

theorem Spec.Conserved.frame {t : Int} {l a o : List (DataPoint F)} (h : Conserved t l a o) (x : List (DataPoint F)) :
    Conserved t (x ++ l) (x ++ a) o := by
  obtain ⟨lost, h1, h2⟩ := h
  exact ⟨lost, by permc [h1], h2⟩

/-! ### Removal -/

namespace Centroid

/-- The state after `rmDataPoint(i)` when `d` is at index `i`. -/
def rmP (c : Centroid F) (i : Nat) (d : DataPoint F) : Centroid F :=
  { c with
    vec := if 1 < c.dps.length then
        vecDivScalar (vecSub (vecMulScalar c.vec (ofNat c.dps.length)) d.vec).1 (ofNat (c.dps.length - 1))
      else c.vec
    dps := c.dps.eraseIdx i }

theorem rm_eq {c : Centroid F} {i : Nat} {d : DataPoint F} (h : c.dps[i]? = some d) : c.rm i = pure (c.rmP i d) := by
  unfold rm
  rw [h]
  rfl

/-- `c'` results from `c` by successive calls of `rmDataPoint`, removing `removed`. -/
inductive RmSteps : Centroid F → List (DataPoint F) → Centroid F → Prop
  | refl (c : Centroid F) : RmSteps c [] c
  | step {c c' : Centroid F} {i : Nat} {d : DataPoint F} {ds : List (DataPoint F)} (h : c.dps[i]? = some d)
      (hs : RmSteps (c.rmP i d) ds c') : RmSteps c (d :: ds) c'

theorem RmSteps.trans {a b c : Centroid F} {x y : List (DataPoint F)} (h : RmSteps a x b) (h' : RmSteps b y c) :
    RmSteps a (x ++ y) c := by
  induction h with
  | refl c => exact h'
  | step h hs ih => exact .step h (ih h')

theorem perm_eraseIdx {α : Type} {l : List α} {i : Nat} {d : α} (h : l[i]? = some d) : (d :: l.eraseIdx i).Perm l := by
  obtain ⟨hi, rfl⟩ := List.getElem?_eq_some_iff.1 h
  exact List.getElem_cons_eraseIdx_perm hi

theorem RmSteps.perm {a b : Centroid F} {x : List (DataPoint F)} (h : RmSteps a x b) : (x ++ b.dps).Perm a.dps := by
  induction h with
  | refl c => simp
  | step h hs ih =>
    exact (ih.cons _).trans (perm_eraseIdx h)

theorem RmSteps.sublist {a b : Centroid F} {x : List (DataPoint F)} (h : RmSteps a x b) : b.dps.Sublist a.dps := by
  induction h with
  | refl c => exact List.Sublist.refl _
  | step h hs ih => exact ih.trans (List.eraseIdx_sublist _ _)

theorem RmSteps.search {a b : Centroid F} {x : List (DataPoint F)} (h : RmSteps a x b) : b.knn = a.knn ∧ b.kfn = a.kfn := by
  induction h with
  | refl c => exact ⟨rfl, rfl⟩
  | step h hs ih => exact ih

theorem RmSteps.length {a b : Centroid F} {x : List (DataPoint F)} (h : RmSteps a x b) :
    x.length + b.dps.length = a.dps.length := by
  have := h.perm.length_eq
  simpa using this

/-- Removing only expired datapoints conserves. -/
theorem RmSteps.conserved {a b : Centroid F} {x : List (DataPoint F)} (h : RmSteps a x b) {t : Int}
    (hx : ∀ d ∈ x, Dead t d) : Conserved t a.dps b.dps [] :=
  ⟨x, by permc [h.perm], hx⟩

/-- Every datapoint has the dimension of the centroid. -/
def DimOK (c : Centroid F) : Prop := ∀ d ∈ c.dps, d.vec.length = c.vec.length

theorem rmP_vec_length {c : Centroid F} {i : Nat} {d : DataPoint F} (h : d.vec.length = c.vec.length) :
    (c.rmP i d).vec.length = c.vec.length := by
  unfold rmP
  simp only []
  split
  · simp [vecDivScalar, vecSub, vecMulScalar, h]
  · rfl

theorem RmSteps.dim {a b : Centroid F} {x : List (DataPoint F)} (h : RmSteps a x b) (hd : a.DimOK) :
    b.vec.length = a.vec.length ∧ b.DimOK := by
  induction h with
  | refl c => exact ⟨rfl, hd⟩
  | @step c c' i d ds h hs ih =>
    have hl : (c.rmP i d).vec.length = c.vec.length := rmP_vec_length (hd d (List.mem_of_getElem? h))
    have := ih (fun e he => by rw [hl]; exact hd e ((List.eraseIdx_sublist _ _).subset he))
    exact ⟨this.1.trans hl, this.2⟩

/-! ### Purging: the common effect of `Expire` and of pulling the generator -/

/-- From index `i` on, expired datapoints were removed between clock positions `p` and `p'`. -/
structure Purged (tk : Nat → Int) (i p p' : Nat) (c c' : Centroid F) : Prop where
  le : p ≤ p'
  steps : ∃ removed, RmSteps c removed c' ∧ ∀ d ∈ removed, Dead (tk p') d
  take : c'.dps.take i = c.dps.take i
  lower : ((c.dps.drop i).filter (fun d => !d.expiredAt (tk p'))).Sublist (c'.dps.drop i)
  upper : (c'.dps.drop i).Sublist ((c.dps.drop i).filter (fun d => !d.expiredAt (tk p)))

theorem Purged.nil {tk : Nat → Int} {i p : Nat} {c : Centroid F} (h : c.dps[i]? = none) : Purged tk i p p c c := by
  have hd : c.dps.drop i = [] := List.drop_eq_nil_of_le (List.getElem?_eq_none_iff.1 h)
  exact ⟨Nat.le_refl _, ⟨[], .refl c, by simp⟩, rfl, by simp [hd], by simp [hd]⟩

theorem filter_live_mono {tk : Nat → Int} (hm : MonoClock tk) {p q : Nat} (h : p ≤ q) (l : List (DataPoint F)) :
    (l.filter (fun d => !d.expiredAt (tk q))).Sublist (l.filter (fun d => !d.expiredAt (tk p))) := by
  apply List.monotone_filter_right
  intro d hd
  simp only [Bool.not_eq_true', expiredAt_false_iff] at *
  exact fun h' => hd (h'.mono hm h)

theorem drop_of_getElem? {α : Type} {l : List α} {i : Nat} {d : α} (h : l[i]? = some d) :
    l.drop i = d :: l.drop (i + 1) := by
  obtain ⟨hi, rfl⟩ := List.getElem?_eq_some_iff.1 h
  exact List.drop_eq_getElem_cons hi

theorem Purged.step_rm {tk : Nat → Int} (hm : MonoClock tk) {i p p' : Nat} {c c' : Centroid F} {d : DataPoint F}
    (h : c.dps[i]? = some d) (hd : d.expiredAt (tk p) = true) (hp : Purged tk i (p + 1) p' (c.rmP i d) c') :
    Purged tk i p p' c c' := by
  have hle : p ≤ p' := by have := hp.le; omega
  have hdrop := drop_of_getElem? h
  have hi : i < c.dps.length := (List.getElem?_eq_some_iff.1 h).1
  have hdrop' : (c.rmP i d).dps.drop i = c.dps.drop (i + 1) := by
    show (c.dps.eraseIdx i).drop i = _
    rw [List.eraseIdx_eq_take_drop_succ, List.drop_append_of_le_length (by simp; omega)]
    simp
  have htake' : (c.rmP i d).dps.take i = c.dps.take i := by
    show (c.dps.eraseIdx i).take i = _
    rw [List.eraseIdx_eq_take_drop_succ, List.take_append_of_le_length (by simp; omega)]
    rw [List.take_take, Nat.min_self]
  obtain ⟨removed, hs, hr⟩ := hp.steps
  have hdead : Dead (tk p') d := ((expiredAt_iff _ _).1 hd).mono hm hle
  refine ⟨hle, ⟨d :: removed, .step h hs, ?_⟩, hp.take.trans htake', ?_, ?_⟩
  · intro e he
    rcases List.mem_cons.1 he with rfl | he
    · exact hdead
    · exact hr e he
  · rw [hdrop, List.filter_cons_of_neg (by simp [(expiredAt_iff _ _).2 hdead])]
    have := hp.lower
    rwa [hdrop'] at this
  · rw [hdrop, List.filter_cons_of_neg (by simp [hd])]
    have := hp.upper
    rw [hdrop'] at this
    exact this.trans (filter_live_mono hm (by omega) _)

theorem Purged.step_keep {tk : Nat → Int} (hm : MonoClock tk) {i p p' : Nat} {c c' : Centroid F} {d : DataPoint F}
    (h : c.dps[i]? = some d) (hd : d.expiredAt (tk p) = false) (hp : Purged tk (i + 1) (p + 1) p' c c') :
    Purged tk i p p' c c' := by
  have hle : p ≤ p' := by have := hp.le; omega
  have hdrop := drop_of_getElem? h
  have hi : i < c.dps.length := (List.getElem?_eq_some_iff.1 h).1
  have h' : c'.dps[i]? = some d := by
    have : (c'.dps.take (i + 1))[i]? = (c.dps.take (i + 1))[i]? := by rw [hp.take]
    simpa [List.getElem?_take, h] using this
  refine ⟨hle, hp.steps, ?_, ?_, ?_⟩
  · have : (c'.dps.take (i + 1)).take i = (c.dps.take (i + 1)).take i := by rw [hp.take]
    simpa [List.take_take] using this
  · rw [hdrop, drop_of_getElem? h', List.filter_cons]
    split
    · exact hp.lower.cons_cons _
    · exact hp.lower.cons _
  · rw [hdrop, drop_of_getElem? h', List.filter_cons_of_pos (by simp [hd])]
    exact (hp.upper.trans (filter_live_mono hm (by omega) _)).cons_cons _

theorem wp_expireLoop {tk : Nat → Int} (hm : MonoClock tk) : ∀ (fuel i : Nat) (c : Centroid F) (p : Nat),
    c.dps.length ≤ fuel + i → Go.wp (expireLoop tk fuel i c) (fun c' p' => Purged tk i p p' c c') p
  | 0, i, c, p, hf => by
    unfold expireLoop
    rw [Go.wp_pure]
    exact Purged.nil (List.getElem?_eq_none (by omega))
  | fuel + 1, i, c, p, hf => by
    unfold expireLoop
    cases h : c.dps[i]? with
    | none => simp only [Go.wp_pure]; exact Purged.nil h
    | some d =>
      have hi : i < c.dps.length := (List.getElem?_eq_some_iff.1 h).1
      simp only [Go.wp_bind, DataPoint.wp_expired, Go.wp_ite, rm_eq h, Go.wp_pure]
      constructor
      · intro he
        refine Go.wp_mono (wp_expireLoop hm fuel i (c.rmP i d) (p + 1) ?_) (fun c' p' hp => hp.step_rm hm h he)
        show (c.dps.eraseIdx i).length ≤ _
        rw [List.length_eraseIdx_of_lt hi]; omega
      · intro he
        exact Go.wp_mono (wp_expireLoop hm fuel (i + 1) c (p + 1) (by omega))
          (fun c' p' hp => hp.step_keep hm h (by simpa using he))

theorem wp_expire {tk : Nat → Int} (hm : MonoClock tk) (c : Centroid F) (p : Nat) :
    Go.wp (c.expire tk) (fun c' p' => Purged tk 0 p p' c c') p :=
  wp_expireLoop hm _ 0 c p (by omega)

/-- Effect of the skipping loop. -/
theorem wp_skipExpired {tk : Nat → Int} (hm : MonoClock tk) (i : Nat) : ∀ (fuel : Nat) (c : Centroid F) (p : Nat),
    c.dps.length ≤ fuel + i → Go.wp (skipExpired tk i fuel c) (fun c' p' => c'.dps.length ≤ c.dps.length ∧
      match c'.dps[i]? with
      | none => Purged tk i p p' c c'
      | some d => ∀ c'' p'', Purged tk (i + 1) p' p'' c' c'' → Purged tk i p p'' c c'') p
  | 0, c, p, hf => by
    unfold skipExpired
    rw [Go.wp_pure]
    have : c.dps[i]? = none := List.getElem?_eq_none (by omega)
    rw [this]
    exact ⟨Nat.le_refl _, Purged.nil this⟩
  | fuel + 1, c, p, hf => by
    unfold skipExpired
    cases h : c.dps[i]? with
    | none => simp only [Go.wp_pure]; rw [h]; exact ⟨Nat.le_refl _, Purged.nil h⟩
    | some d =>
      have hi : i < c.dps.length := (List.getElem?_eq_some_iff.1 h).1
      simp only [Go.wp_bind, DataPoint.wp_expired, Go.wp_ite, rm_eq h, Go.wp_pure]
      have hlen : (c.rmP i d).dps.length + 1 = c.dps.length := by
        show (c.dps.eraseIdx i).length + 1 = _
        rw [List.length_eraseIdx_of_lt hi]; omega
      constructor
      · intro he
        refine Go.wp_mono (wp_skipExpired hm i fuel (c.rmP i d) (p + 1) (by omega)) (fun c' p' hp => ?_)
        refine ⟨by omega, ?_⟩
        have hp := hp.2
        cases h' : c'.dps[i]? with
        | none => rw [h'] at hp; exact hp.step_rm hm h he
        | some e => rw [h'] at hp; exact fun c'' p'' h'' => (hp c'' p'' h'').step_rm hm h he
      · intro he
        rw [h]
        exact ⟨Nat.le_refl _, fun c'' p'' h'' => h''.step_keep hm h (by simpa using he)⟩

theorem wp_genAll {tk : Nat → Int} (hm : MonoClock tk) : ∀ (fuel : Nat) (c : Centroid F) (i p : Nat),
    c.dps.length < fuel + i → Go.wp (genAll tk fuel c i) (fun r p' => Purged tk i p p' c r.2 ∧
      r.1 = (r.2.dps.drop i).map (fun d => d.vec)) p
  | 0, c, i, p, hf => by
    unfold genAll
    rw [Go.wp_pure]
    have h : c.dps[i]? = none := List.getElem?_eq_none (by omega)
    exact ⟨Purged.nil h, by simp [List.drop_eq_nil_of_le (List.getElem?_eq_none_iff.1 h)]⟩
  | fuel + 1, c, i, p, hf => by
    unfold genAll genNext
    simp only [Go.wp_bind]
    refine Go.wp_mono (wp_skipExpired hm i _ c p (by omega)) (fun c' p' hp => ?_)
    cases h' : c'.dps[i]? with
    | none =>
      rw [h'] at hp
      simp only [Go.wp_pure]
      exact ⟨hp.2, by simp [List.drop_eq_nil_of_le (List.getElem?_eq_none_iff.1 h')]⟩
    | some d =>
      rw [h'] at hp
      simp only [Go.wp_pure, Go.wp_bind]
      refine Go.wp_mono (wp_genAll hm fuel c' (i + 1) p' (by omega)) (fun r p'' hr => ?_)
      refine ⟨hp.2 _ _ hr.1, ?_⟩
      have : r.2.dps[i]? = some d := by
        have : (r.2.dps.take (i + 1))[i]? = (c'.dps.take (i + 1))[i]? := by rw [hr.1.take]
        simpa [List.getElem?_take, h'] using this
      rw [drop_of_getElem? this, List.map_cons, hr.2]

/-! ### Removing several indexes -/

theorem insertInt_perm (a : Nat) : ∀ l, (insertInt a l).Perm (a :: l)
  | [] => by simp [insertInt]
  | b :: l => by
    unfold insertInt
    split
    · exact List.Perm.refl _
    · exact ((insertInt_perm a l).cons b).trans (List.Perm.swap a b l)

theorem sortInts_perm : ∀ l, (sortInts l).Perm l
  | [] => by simp [sortInts]
  | a :: l => (insertInt_perm a _).trans ((sortInts_perm l).cons a)

theorem insertInt_sorted (a : Nat) : ∀ l : List Nat, l.Pairwise (· ≤ ·) → (insertInt a l).Pairwise (· ≤ ·)
  | [], _ => by simp [insertInt]
  | b :: l, h => by
    unfold insertInt
    rw [List.pairwise_cons] at h
    split
    · rename_i hab
      refine List.pairwise_cons.2 ⟨fun x hx => ?_, List.pairwise_cons.2 h⟩
      rcases List.mem_cons.1 hx with rfl | hx
      · exact hab
      · exact Nat.le_trans hab (h.1 x hx)
    · rename_i hab
      refine List.pairwise_cons.2 ⟨fun x hx => ?_, insertInt_sorted a l h.2⟩
      rcases List.mem_cons.1 ((insertInt_perm a l).mem_iff.1 hx) with rfl | hx
      · omega
      · exact h.1 x hx

theorem sortInts_sorted : ∀ l, (sortInts l).Pairwise (· ≤ ·)
  | [] => by simp [sortInts]
  | a :: l => insertInt_sorted a _ (sortInts_sorted l)

theorem sortInts_desc {l : List Nat} (h : l.Nodup) : (sortInts l).reverse.Pairwise (· > ·) := by
  rw [List.pairwise_reverse]
  have h1 := sortInts_sorted l
  have h2 : (sortInts l).Nodup := (sortInts_perm l).nodup_iff.2 h
  exact (h1.and h2).imp (fun h => by omega)

theorem wp_getAll (c : Centroid F) : ∀ (is : List Nat) (p : Nat), (∀ i ∈ is, i < c.dps.length) →
    Go.wp (getAll is c) (fun ds p' => p' = p ∧ is.map (fun i => c.dps[i]?) = ds.map some) p
  | [], p, _ => by simp [getAll]
  | i :: is, p, h => by
    unfold getAll
    simp only [Go.wp_bind, Go.wp_idx]
    refine ⟨c.dps[i]'(h i (by simp)), List.getElem?_eq_getElem _, ?_⟩
    refine Go.wp_mono (wp_getAll c is p (fun j hj => h j (by simp [hj]))) (fun ds p' hp => ?_)
    simp only [Go.wp_pure, List.map_cons, hp.2, hp.1, true_and]
    rw [List.getElem?_eq_getElem (h i (by simp))]

/-- Removing indexes from the largest to the smallest. -/
theorem wp_rmAll : ∀ (is : List Nat) (c : Centroid F) (p : Nat), is.Pairwise (· > ·) → (∀ i ∈ is, i < c.dps.length) →
    Go.wp (rmAll is c) (fun c' p' => p' = p ∧ (∃ removed, RmSteps c removed c' ∧
        is.map (fun i => c.dps[i]?) = removed.map some) ∧
      ∀ e ∈ c'.dps, ∃ j : Nat, j ∉ is ∧ c.dps[j]? = some e) p
  | [], c, p, _, _ => by
    unfold rmAll
    rw [Go.wp_pure]
    refine ⟨rfl, ⟨[], .refl c, rfl⟩, fun e he => ?_⟩
    obtain ⟨j, hj⟩ := List.mem_iff_getElem?.1 he
    exact ⟨j, by simp, hj⟩
  | i :: is, c, p, hd, h => by
    have hi := h i (by simp)
    rw [List.pairwise_cons] at hd
    unfold rmAll
    have hget : c.dps[i]? = some c.dps[i] := List.getElem?_eq_getElem hi
    rw [rm_eq hget]
    simp only [Go.wp_bind, Go.wp_pure]
    have hlt : ∀ j ∈ is, j < i := fun j hj => hd.1 j hj
    refine Go.wp_mono (wp_rmAll is (c.rmP i c.dps[i]) p hd.2 (fun j hj => ?_)) (fun c' p' hp => ?_)
    · show j < (c.dps.eraseIdx i).length
      rw [List.length_eraseIdx_of_lt hi]
      have := hlt j hj
      omega
    · obtain ⟨h1, ⟨removed, h2, h3⟩, h4⟩ := hp
      refine ⟨h1, ⟨c.dps[i] :: removed, .step hget h2, ?_⟩, ?_⟩
      · rw [List.map_cons, List.map_cons, hget, ← h3]
        congr 1
        apply List.map_congr_left
        intro j hj
        show _ = (c.dps.eraseIdx i)[j]?
        rw [List.getElem?_eraseIdx_of_lt (hlt j hj)]
      · intro e he
        obtain ⟨j, hj1, hj2⟩ := h4 e he
        change (c.dps.eraseIdx i)[j]? = some e at hj2
        rcases Nat.lt_or_ge j i with hji | hji
        · rw [List.getElem?_eraseIdx_of_lt hji] at hj2
          exact ⟨j, by simp [hj1]; omega, hj2⟩
        · rw [List.getElem?_eraseIdx_of_ge hji] at hj2
          refine ⟨j + 1, ?_, hj2⟩
          intro hm
          rcases List.mem_cons.1 hm with hm | hm
          · omega
          · have := hlt _ hm; omega

end Centroid

/-! ### Search functions -/

/-- What the library needs of a search function: for `k ≥ 0` it returns at most `k` distinct valid indexes. -/
def SearchOK (s : Search F) : Prop :=
  ∀ t pool (k : Int), 0 ≤ k → ∃ r, s t pool k = .ok r ∧ r.Nodup ∧ (∀ i ∈ r, i < pool.length) ∧ (r.length : Int) ≤ k

namespace Centroid

/-- The effect of selecting `indexes` from a purged centroid and removing them. -/
structure Selected (c1 c' : Centroid F) (indexes : List Nat) (out : List (DataPoint F)) : Prop where
  out_eq : indexes.map (fun i => c1.dps[i]?) = out.map some
  steps : ∃ removed, RmSteps c1 removed c' ∧ removed.Perm out
  rest : ∀ e ∈ c'.dps, ∃ j : Nat, j ∉ indexes ∧ c1.dps[j]? = some e

theorem wp_select {c1 : Centroid F} {indexes : List Nat} {out : List (DataPoint F)} {p : Nat} (hn : indexes.Nodup)
    (hr : ∀ i ∈ indexes, i < c1.dps.length) (ho : indexes.map (fun i => c1.dps[i]?) = out.map some) :
    Go.wp (rmAll (sortInts indexes).reverse c1) (fun c' p' => p' = p ∧ Selected c1 c' indexes out) p := by
  have hmem : ∀ i, i ∈ (sortInts indexes).reverse ↔ i ∈ indexes := by
    intro i; rw [List.mem_reverse, (sortInts_perm indexes).mem_iff]
  refine Go.wp_mono (wp_rmAll _ c1 p (sortInts_desc hn) (fun i hi => hr i ((hmem i).1 hi))) (fun c' p' hp => ?_)
  obtain ⟨h1, ⟨removed, h2, h3⟩, h4⟩ := hp
  refine ⟨h1, ho, ⟨removed, h2, ?_⟩, fun e he => ?_⟩
  · have hperm : ((sortInts indexes).reverse.map (fun i => c1.dps[i]?)).Perm (indexes.map (fun i => c1.dps[i]?)) :=
      ((List.reverse_perm _).trans (sortInts_perm indexes)).map _
    rw [h3, ho] at hperm
    exact (List.map_perm_map_iff (Option.some_injective _)).1 hperm
  · obtain ⟨j, hj1, hj2⟩ := h4 e he
    exact ⟨j, fun h => hj1 ((hmem j).2 h), hj2⟩

/-- Effect of `DrainOrdered` and of a draining `KNNLookup` in terms of the search result on the purged centroid. -/
def DrainEffect (tk : Nat → Int) (s : Search F) (target : List F) (n : Int) (c : Centroid F) (p : Nat)
    (out : List (DataPoint F)) (c' : Centroid F) (p' : Nat) : Prop :=
  ∃ c1 indexes, Purged tk 0 p p' c c1 ∧ s target (c1.dps.map (fun d => d.vec)) n = .ok indexes ∧
    indexes.Nodup ∧ (indexes.length : Int) ≤ n ∧ Selected c1 c' indexes out

theorem wp_drainOrdered {tk : Nat → Int} (hm : MonoClock tk) (c : Centroid F) (hs : SearchOK c.kfn) {n : Int} (hn : 0 ≤ n)
    (p : Nat) : Go.wp (c.drainOrdered tk n) (fun r p' => DrainEffect tk c.kfn c.vec n c p r.1 r.2 p') p := by
  unfold drainOrdered
  simp only [Go.wp_bind, Go.wp_checkMake, Go.wp_lift]
  refine ⟨hn, ?_⟩
  refine Go.wp_mono (wp_genAll hm _ c 0 p (by omega)) (fun g p1 hg => ?_)
  obtain ⟨r, h1, h2, h3, h4⟩ := hs c.vec g.1 n hn
  have hg1 : g.1 = g.2.dps.map (fun d => d.vec) := by simpa using hg.2
  refine ⟨r, h1, ?_⟩
  have hr : ∀ i ∈ r, i < g.2.dps.length := by
    intro i hi; have := h3 i hi; rwa [hg1, List.length_map] at this
  refine Go.wp_mono (wp_getAll g.2 r p1 hr) (fun out p2 ho => ?_)
  obtain ⟨rfl, ho⟩ := ho
  refine Go.wp_mono (wp_select h2 hr ho) (fun c' p3 hc => ?_)
  obtain ⟨rfl, hc⟩ := hc
  rw [Go.wp_pure]
  exact ⟨g.2, r, hg.1, by rw [← hg1]; exact h1, h2, h4, hc⟩

/-- Effect of a non-draining `KNNLookup`. -/
def LookupEffect (tk : Nat → Int) (s : Search F) (target : List F) (n : Int) (c : Centroid F) (p : Nat)
    (out : List (DataPoint F)) (c' : Centroid F) (p' : Nat) : Prop :=
  ∃ indexes, Purged tk 0 p p' c c' ∧ s target (c'.dps.map (fun d => d.vec)) n = .ok indexes ∧
    indexes.Nodup ∧ (indexes.length : Int) ≤ n ∧ indexes.map (fun i => c'.dps[i]?) = out.map some

theorem wp_knnLookup {tk : Nat → Int} (hm : MonoClock tk) (c : Centroid F) (hs : SearchOK c.knn) (v : List F) {n : Int}
    (hn : 0 ≤ n) (drain : Bool) (p : Nat) : Go.wp (c.knnLookup tk v n drain) (fun r p' =>
      if drain then DrainEffect tk c.knn v n c p r.1 r.2 p' else LookupEffect tk c.knn v n c p r.1 r.2 p') p := by
  unfold knnLookup
  simp only [Go.wp_bind, Go.wp_checkMake, Go.wp_lift]
  refine ⟨hn, ?_⟩
  refine Go.wp_mono (wp_genAll hm _ c 0 p (by omega)) (fun g p1 hg => ?_)
  obtain ⟨r, h1, h2, h3, h4⟩ := hs v g.1 n hn
  have hg1 : g.1 = g.2.dps.map (fun d => d.vec) := by simpa using hg.2
  refine ⟨r, h1, ?_⟩
  have hr : ∀ i ∈ r, i < g.2.dps.length := by
    intro i hi; have := h3 i hi; rwa [hg1, List.length_map] at this
  refine Go.wp_mono (wp_getAll g.2 r p1 hr) (fun out p2 ho => ?_)
  obtain ⟨rfl, ho⟩ := ho
  cases drain with
  | true =>
    simp only [if_true, Go.wp_bind]
    refine Go.wp_mono (wp_select h2 hr ho) (fun c' p3 hc => ?_)
    obtain ⟨rfl, hc⟩ := hc
    rw [Go.wp_pure]
    exact ⟨g.2, r, hg.1, by rw [← hg1]; exact h1, h2, h4, hc⟩
  | false =>
    simp only [Bool.false_eq_true, if_false, Go.wp_pure]
    exact ⟨r, hg.1, by rw [← hg1]; exact h1, h2, h4, ho⟩

end Centroid
end Trypo
