import Verif.Proofs.Centroid2
import Verif.Proofs.Manager
import Verif.Spec.NoPanic

/-!
# Nothing panics, whatever the clock and the dimensions

The invariant is only that search functions keep their contract and that capacities are not negative.
-/

namespace Trypo
open Spec

variable {F : Type} [GoFloat F]

set_option linter.unusedSectionVars false

/-- The search functions were not changed. -/
def Kept (c c' : Centroid F) : Prop := c'.knn = c.knn ∧ c'.kfn = c.kfn

theorem Kept.refl (c : Centroid F) : Kept c c := ⟨rfl, rfl⟩
theorem Kept.trans {a b c : Centroid F} (h : Kept a b) (h' : Kept b c) : Kept a c := ⟨h'.1.trans h.1, h'.2.trans h.2⟩
theorem Kept.lax {a b : Centroid F} (h : Kept a b) (ha : CLax a) : CLax b := by
  unfold CLax at *; rw [h.1, h.2]; exact ha

namespace Centroid

theorem np_add (tk : Nat → Int) (c : Centroid F) (d : DataPoint F) (p : Nat) : Go.wp (c.addDataPoint tk d) (fun r _ => Kept c r.2) p := by
  unfold addDataPoint
  rw [Go.wp_ite]
  refine ⟨fun _ => Kept.refl c, fun _ => ?_⟩
  simp only [Go.wp_bind, DataPoint.wp_expired, Go.wp_ite, Go.wp_pure]
  exact ⟨fun _ => Kept.refl c, fun _ => ⟨rfl, rfl⟩⟩

theorem np_rm (c : Centroid F) {i : Nat} (h : i < c.dps.length) (p : Nat) :
    Go.wp (c.rm i) (fun c' _ => Kept c c' ∧ c'.dps.length + 1 = c.dps.length) p := by
  rw [rm_eq (List.getElem?_eq_getElem h), Go.wp_pure]
  refine ⟨⟨rfl, rfl⟩, ?_⟩
  simp only [rmP, List.length_eraseIdx, h, if_true]
  omega

theorem np_skip (tk : Nat → Int) (i : Nat) : ∀ (fuel : Nat) (c : Centroid F) (p : Nat), i ≤ c.dps.length →
    Go.wp (skipExpired tk i fuel c) (fun c' _ => Kept c c' ∧ i ≤ c'.dps.length ∧ c'.dps.length ≤ c.dps.length) p
  | 0, c, p, h => by unfold skipExpired; exact ⟨Kept.refl c, h, Nat.le_refl _⟩
  | fuel + 1, c, p, h => by
    unfold skipExpired
    cases hd : c.dps[i]? with
    | none => exact ⟨Kept.refl c, h, Nat.le_refl _⟩
    | some d =>
      simp only [Go.wp_bind, DataPoint.wp_expired, Go.wp_ite, Go.wp_pure]
      refine ⟨fun _ => ?_, fun _ => ⟨Kept.refl c, h, Nat.le_refl _⟩⟩
      have hi := (List.getElem?_eq_some_iff.1 hd).1
      refine Go.wp_mono (np_rm c hi _) (fun c1 p1 h1 => ?_)
      refine Go.wp_mono (np_skip tk i fuel c1 p1 (by omega)) (fun c2 p2 h2 => ?_)
      exact ⟨h1.1.trans h2.1, h2.2.1, by omega⟩

theorem np_next (tk : Nat → Int) (c : Centroid F) {i : Nat} (h : i ≤ c.dps.length) (p : Nat) :
    Go.wp (genNext tk c i) (fun r _ => Kept c r.2.1 ∧ r.2.1.dps.length ≤ c.dps.length ∧
      (r.1 = none → r.2.1.dps.length = i) ∧ (r.1 ≠ none → r.2.2 = i + 1 ∧ i + 1 ≤ r.2.1.dps.length)) p := by
  unfold genNext
  rw [Go.wp_bind]
  refine Go.wp_mono (np_skip tk i _ c p h) (fun c1 p1 h1 => ?_)
  cases hd : c1.dps[i]? with
  | none =>
    have := List.getElem?_eq_none_iff.1 hd
    exact ⟨h1.1, h1.2.2, fun _ => by simp only; omega, fun h => absurd rfl h⟩
  | some d =>
    have := (List.getElem?_eq_some_iff.1 hd).1
    exact ⟨h1.1, h1.2.2, fun h => by simp at h, fun _ => ⟨rfl, by simp only; omega⟩⟩

theorem np_genAll (tk : Nat → Int) : ∀ (fuel : Nat) (c : Centroid F) (i p : Nat), i ≤ c.dps.length → c.dps.length < fuel + i →
    Go.wp (genAll tk fuel c i) (fun r _ => Kept c r.2 ∧ r.1.length + i = r.2.dps.length) p
  | 0, c, i, p, h, hf => by omega
  | fuel + 1, c, i, p, h, hf => by
    unfold genAll
    rw [Go.wp_bind]
    refine Go.wp_mono (np_next tk c h p) (fun r p1 hr => ?_)
    obtain ⟨o, c1, i1⟩ := r
    obtain ⟨h1, h2, h3, h4⟩ := hr
    cases o with
    | none =>
      have := h3 rfl
      refine ⟨h1, ?_⟩
      simp only at this ⊢
      simp; omega
    | some v =>
      obtain ⟨h5, h6⟩ := h4 (by simp)
      simp only at h5 h6 h2
      subst h5
      simp only [Go.wp_bind, Go.wp_pure]
      refine Go.wp_mono (np_genAll tk fuel c1 (i + 1) p1 h6 (by omega)) (fun q p2 hq => ⟨h1.trans hq.1, ?_⟩)
      simp only [List.length_cons]
      omega

theorem np_drainUnordered (tk : Nat → Int) (c : Centroid F) {n : Int} (hn : 0 ≤ n) (p : Nat) :
    Go.wp (c.drainUnordered tk n) (fun r _ => Kept c r.2) p :=
  Go.wp_mono (Centroid.wp_drainUnordered tk c hn p) (fun r p' hr => by
    obtain ⟨pre, h1, _⟩ := hr
    exact h1.search)

theorem np_getAll (c : Centroid F) {is : List Nat} (h : ∀ i ∈ is, i < c.dps.length) (p : Nat) :
    Go.wp (getAll is c) (fun _ _ => True) p := Go.wp_mono (wp_getAll c is p h) (fun _ _ _ => trivial)

theorem np_rmAll {is : List Nat} (c : Centroid F) (hn : is.Nodup) (h : ∀ i ∈ is, i < c.dps.length) (p : Nat) :
    Go.wp (rmAll (sortInts is).reverse c) (fun c' _ => Kept c c') p :=
  Go.wp_mono (wp_rmAll _ c p (sortInts_desc hn) (fun i hi => h i ((sortInts_perm is).mem_iff.1 (List.mem_reverse.1 hi))))
    (fun c' p' hr => by
      obtain ⟨_, ⟨rem, h1, _⟩, _⟩ := hr
      exact h1.search)

theorem np_drainOrdered (tk : Nat → Int) (c : Centroid F) (hc : CLax c) {n : Int} (hn : 0 ≤ n) (p : Nat) :
    Go.wp (c.drainOrdered tk n) (fun r _ => Kept c r.2) p := by
  unfold drainOrdered
  simp only [Go.wp_bind, Go.wp_checkMake, Go.wp_lift]
  refine ⟨hn, Go.wp_mono (np_genAll tk _ c 0 p (Nat.zero_le _) (by omega)) (fun g p1 hg => ?_)⟩
  obtain ⟨is, e, h1, h2, _⟩ := hc.2 c.vec g.1 n hn
  have h3 : ∀ i ∈ is, i < g.2.dps.length := fun i hi => by have := h2 i hi; omega
  refine ⟨is, e, Go.wp_mono (np_getAll g.2 h3 p1) (fun res p2 _ => Go.wp_mono (np_rmAll g.2 h1 h3 p2) (fun c' p3 h4 => ?_))⟩
  exact hg.1.trans h4

theorem np_knnLookup (tk : Nat → Int) (c : Centroid F) (hc : CLax c) (v : List F) {n : Int} (hn : 0 ≤ n) (drain : Bool) (p : Nat) :
    Go.wp (c.knnLookup tk v n drain) (fun r _ => Kept c r.2) p := by
  unfold knnLookup
  simp only [Go.wp_bind, Go.wp_checkMake, Go.wp_lift]
  refine ⟨hn, Go.wp_mono (np_genAll tk _ c 0 p (Nat.zero_le _) (by omega)) (fun g p1 hg => ?_)⟩
  obtain ⟨is, e, h1, h2, _⟩ := hc.1 v g.1 n hn
  have h3 : ∀ i ∈ is, i < g.2.dps.length := fun i hi => by have := h2 i hi; omega
  refine ⟨is, e, Go.wp_mono (np_getAll g.2 h3 p1) (fun res p2 _ => ?_)⟩
  rw [Go.wp_ite]
  refine ⟨fun _ => ?_, fun _ => hg.1⟩
  rw [Go.wp_bind]
  exact Go.wp_mono (np_rmAll g.2 h1 h3 p2) (fun c' p3 h4 => hg.1.trans h4)

theorem np_expireLoop (tk : Nat → Int) : ∀ (fuel i : Nat) (c : Centroid F) (p : Nat), Go.wp (expireLoop tk fuel i c) (fun c' _ => Kept c c') p
  | 0, i, c, p => Kept.refl c
  | fuel + 1, i, c, p => by
    unfold expireLoop
    cases hd : c.dps[i]? with
    | none => exact Kept.refl c
    | some d =>
      simp only [Go.wp_bind, DataPoint.wp_expired, Go.wp_ite]
      refine ⟨fun _ => ?_, fun _ => np_expireLoop tk fuel _ c _⟩
      refine Go.wp_mono (np_rm c (List.getElem?_eq_some_iff.1 hd).1 _) (fun c1 p1 h1 => ?_)
      exact Go.wp_mono (np_expireLoop tk fuel i c1 p1) (fun c2 p2 h2 => h1.1.trans h2)

theorem np_expire (tk : Nat → Int) (c : Centroid F) (p : Nat) : Go.wp (c.expire tk) (fun c' _ => Kept c c') p :=
  np_expireLoop tk _ 0 c p

theorem np_memTrimLoop (tk : Nat → Int) : ∀ (fuel : Nat) (c : Centroid F) (acc : List (DataPoint F)) (p : Nat),
    Go.wp (memTrimLoop tk fuel c acc) (fun r _ => Kept c r.2) p
  | 0, c, acc, p => Kept.refl c
  | fuel + 1, c, acc, p => by
    unfold memTrimLoop
    rw [Go.wp_ite]
    refine ⟨fun _ => ?_, fun _ => Kept.refl c⟩
    rw [Go.wp_bind]
    refine Go.wp_mono (np_drainUnordered tk c (by decide) p) (fun r p1 h1 => ?_)
    exact Go.wp_mono (np_memTrimLoop tk fuel r.2 _ p1) (fun q p2 h2 => h1.trans h2)

theorem np_memTrim (tk : Nat → Int) (c : Centroid F) (p : Nat) : Go.wp (c.memTrim tk) (fun c' _ => Kept c c') p := by
  unfold memTrim
  rw [Go.wp_bind]
  exact Go.wp_mono (np_memTrimLoop tk _ c [] p) (fun r p1 h1 => h1)

theorem np_meanLoop (tk : Nat → Int) : ∀ (fuel : Nat) (res : List F) (n : F) (c : Centroid F) (i p : Nat), i ≤ c.dps.length →
    Go.wp (meanLoop tk fuel res n c i) (fun r _ => Kept c r.2) p
  | 0, res, n, c, i, p, h => Kept.refl c
  | fuel + 1, res, n, c, i, p, h => by
    unfold meanLoop
    rw [Go.wp_bind]
    refine Go.wp_mono (np_next tk c h p) (fun r p1 hr => ?_)
    obtain ⟨o, c1, i1⟩ := r
    obtain ⟨h1, h2, h3, h4⟩ := hr
    cases o with
    | none => exact h1
    | some v =>
      obtain ⟨h5, h6⟩ := h4 (by simp)
      simp only at h5 h6
      subst h5
      simp only [Go.wp_ite]
      refine ⟨fun _ => h1, fun _ => ?_⟩
      exact Go.wp_mono (np_meanLoop tk fuel _ _ c1 (i + 1) p1 h6) (fun q p2 hq => h1.trans hq)

theorem np_moveVector (tk : Nat → Int) (c : Centroid F) (p : Nat) : Go.wp (c.moveVector tk) (fun r _ => Kept c r.2) p := by
  unfold moveVector
  rw [Go.wp_bind]
  refine Go.wp_mono (np_next tk c (Nat.zero_le _) p) (fun r p1 hr => ?_)
  obtain ⟨o, c1, i1⟩ := r
  obtain ⟨h1, h2, h3, h4⟩ := hr
  cases o with
  | none => exact h1
  | some v =>
    obtain ⟨h5, h6⟩ := h4 (by simp)
    simp only at h5 h6
    subst h5
    simp only [Go.wp_bind]
    refine Go.wp_mono (np_meanLoop tk _ _ _ c1 (0 + 1) p1 h6) (fun q p2 hq => ?_)
    rw [Go.wp_ite]
    exact ⟨fun _ => h1.trans hq, fun _ => h1.trans hq⟩

theorem _root_.Trypo.Spec.AllLax.set {h : List (Centroid F)} (hh : AllLax h) (i : Nat) {c : Centroid F} (hc : CLax c) : AllLax (h.set i c) := by
  intro x hx
  rcases List.mem_or_eq_of_mem_set hx with hx | rfl
  · exact hh x hx
  · exact hc

theorem _root_.Trypo.Spec.AllLax.get {h : List (Centroid F)} (hh : AllLax h) {i : Nat} (hi : i < h.length) : ∃ c, h[i]? = some c ∧ CLax c :=
  ⟨h[i], List.getElem?_eq_getElem hi, hh _ (List.getElem_mem hi)⟩

theorem np_distributeLoop (tk : Nat → Int) {self : Nat} {receivers : List Nat} : ∀ (ds : List (DataPoint F)) (h : List (Centroid F)) (p : Nat),
    AllLax h → self < h.length → (∀ r ∈ receivers, r < h.length) →
    Go.wp (distributeLoop tk self receivers ds h) (fun h' _ => AllLax h' ∧ h'.length = h.length) p
  | [], h, p, hh, _, _ => ⟨hh, rfl⟩
  | d :: ds, h, p, hh, hs, hr => by
    unfold distributeLoop
    simp only [Go.wp_bind, Go.wp_idx]
    obtain ⟨c, e, hc⟩ := hh.get hs
    refine ⟨c, e, ?_⟩
    rw [Go.wp_lift]
    obtain ⟨is, e1, h1, h2, _⟩ := hc.1 d.vec (receiverVecs h receivers) 1 (by decide)
    refine ⟨is, e1, ?_⟩
    cases is with
    | nil =>
      simp only [Go.wp_bind]
      refine Go.wp_mono (np_add tk c d p) (fun r p1 hr1 => ?_)
      refine Go.wp_mono (np_distributeLoop tk ds _ p1 (hh.set self (hr1.lax hc)) (by simpa using hs) (by simpa using hr)) (fun h' p2 h3 => ?_)
      exact ⟨h3.1, by rw [h3.2]; simp⟩
    | cons j js =>
      have hj : j < receivers.length := by
        have := h2 j (by simp)
        unfold receiverVecs at this
        simpa using this
      simp only [Go.wp_bind, Go.wp_idx]
      refine ⟨receivers[j], List.getElem?_eq_getElem hj, ?_⟩
      obtain ⟨rc, e2, hrc⟩ := hh.get (hr _ (List.getElem_mem hj))
      refine ⟨rc, e2, Go.wp_mono (np_add tk rc d p) (fun a p1 ha => ?_)⟩
      have hh1 : AllLax (h.set receivers[j] a.2) := hh.set _ (ha.lax hrc)
      rw [Go.wp_ite]
      refine ⟨fun _ => ?_, fun _ => ?_⟩
      · refine Go.wp_mono (np_distributeLoop tk ds _ p1 hh1 (by simpa using hs) (by simpa using hr)) (fun h' p2 h3 => ?_)
        exact ⟨h3.1, by rw [h3.2]; simp⟩
      · simp only [Go.wp_bind, Go.wp_idx]
        obtain ⟨c1, e3, hc1⟩ := hh1.get (i := self) (by simpa using hs)
        refine ⟨c1, e3, Go.wp_mono (np_add tk c1 d p1) (fun b p2 hb => ?_)⟩
        refine Go.wp_mono (np_distributeLoop tk ds _ p2 (hh1.set self (hb.lax hc1)) (by simpa using hs) (by simpa using hr)) (fun h' p3 h3 => ?_)
        exact ⟨h3.1, by rw [h3.2]; simp⟩

theorem np_distribute (tk : Nat → Int) {h : List (Centroid F)} (hh : AllLax h) {self : Nat} (hs : self < h.length) {n : Int} (hn : 0 ≤ n)
    {receivers : List Nat} (hr : ∀ r ∈ receivers, r < h.length) (p : Nat) :
    Go.wp (distribute tk h self n receivers) (fun h' _ => AllLax h' ∧ h'.length = h.length) p := by
  unfold distribute
  rw [Go.wp_ite]
  refine ⟨fun _ => ⟨hh, rfl⟩, fun _ => ?_⟩
  simp only [Go.wp_bind, Go.wp_idx]
  obtain ⟨c, e, hc⟩ := hh.get hs
  refine ⟨c, e, Go.wp_mono (np_drainOrdered tk c hc hn p) (fun r p1 h1 => ?_)⟩
  refine Go.wp_mono (np_distributeLoop tk _ _ p1 (hh.set self (h1.lax hc)) (by simpa using hs) (by simpa using hr)) (fun h' p2 h3 => ?_)
  exact ⟨h3.1, by rw [h3.2]; simp⟩

end Centroid
end Trypo
