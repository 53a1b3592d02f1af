import Verif.Proofs.F64Drift2
import Verif.Proofs.Manager5

/-!
# Properties of centroids that last as long as their manager

`P p c` is a property of a centroid at clock position `p`. If it is kept by the steps that centroids make, then all centroids of a manager
have it after any history of calls without `MemTrim`.
-/

namespace Trypo
open Spec

variable {F : Type} [GoFloat F]

theorem Go.wlp_lift {α : Type} {e : Except Panic α} {Q : α → Nat → Prop} {p : Nat} (h : ∀ a, e = .ok a → Q a p) :
    Go.wlp (Go.lift e) Q p := by
  intro r p' hr
  cases e with
  | error x => cases hr
  | ok a => cases hr; exact h _ rfl

theorem Go.wlp_checkMake {n : Int} {Q : PUnit → Nat → Prop} {p : Nat} (h : 0 ≤ n → Q ⟨⟩ p) : Go.wlp (Go.checkMake n) Q p := by
  intro r p' hr
  unfold Go.checkMake at hr
  split at hr
  · cases hr
  · cases hr; exact h (by omega)

/-- Steps of a centroid that keep `P`; `G` is what holds of all datapoints. -/
structure Life (knn kfn : Search F) (G : DataPoint F → Prop) (P : Nat → Centroid F → Prop) : Prop where
  mono : ∀ {p q c}, P p c → p ≤ q → P q c
  first : ∀ {d} p, G d → P p ⟨d.vec, [], knn, kfn⟩
  fresh : ∀ {p c}, P p c → P p ⟨c.vec, [], knn, kfn⟩
  searches : ∀ {p c}, P p c → c.knn = knn ∧ c.kfn = kfn
  dim : ∀ {p c}, P p c → c.DimOK
  data : ∀ {p c}, P p c → ∀ d ∈ c.dps, G d
  rm : ∀ {p c i d}, P p c → c.dps[i]? = some d → P p (c.rmP i d)
  add : ∀ {p c d}, P p c → G d → d.vec.length = c.vec.length → P (p + 1) (c.addRaw d)
  move : ∀ {p c}, P p c → (vecMean (c.dps.map (fun d => d.vec))).2 = true → P p { c with vec := (vecMean (c.dps.map (fun d => d.vec))).1 }

namespace Life

variable {knn kfn : Search F} {G : DataPoint F → Prop} {P : Nat → Centroid F → Prop}

theorem rmSteps (L : Life knn kfn G P) {p : Nat} {c c' : Centroid F} {x : List (DataPoint F)} (h : P p c) (hs : Centroid.RmSteps c x c') : P p c' := by
  induction hs with
  | refl c => exact h
  | step hi _ ih => exact ih (L.rm h hi)

theorem all_mono (L : Life knn kfn G P) {p q : Nat} {cs : List (Centroid F)} (h : ∀ c ∈ cs, P p c) (hpq : p ≤ q) : ∀ c ∈ cs, P q c :=
  fun c hc => L.mono (h c hc) hpq

omit [GoFloat F] in
theorem all_set {p : Nat} {cs : List (Centroid F)} (h : ∀ c ∈ cs, P p c) {c : Centroid F} (hc : P p c) (k : Nat) : ∀ x ∈ cs.set k c, P p x := by
  intro x hx
  rcases List.mem_or_eq_of_mem_set hx with hx | rfl
  · exact h x hx
  · exact hc

/-- One offered datapoint. -/
theorem offer (L : Life knn kfn G P) {tk : Nat → Int} {c : Centroid F} {p : Nat} (h : P p c) {d : DataPoint F} (hd : G d) :
    Go.wlp (c.addDataPoint tk d) (fun r q => p ≤ q ∧ P q r.2) p := by
  refine Go.wlp_of_wp ?_
  rw [Centroid.wp_addDataPoint]
  split
  · exact ⟨Nat.le_refl _, h⟩
  · rename_i hl
    split
    · exact ⟨Nat.le_succ _, L.mono h (Nat.le_succ _)⟩
    · exact ⟨Nat.le_succ _, L.add h hd (by simpa using hl)⟩

theorem addAll (L : Life knn kfn G P) {tk : Nat → Int} : ∀ (ds : List (DataPoint F)) (c : Centroid F) (p : Nat), P p c → (∀ d ∈ ds, G d) →
    Go.wlp (Manager.addAll tk ds c) (fun c' q => p ≤ q ∧ P q c') p
  | [], c, p, h, _ => by
    unfold Manager.addAll
    exact Go.wlp_pure ⟨Nat.le_refl _, h⟩
  | d :: ds, c, p, h, hd => by
    unfold Manager.addAll
    refine Go.wlp_bind (Go.wlp_mono (L.offer h (hd d (by simp))) fun r q hr => ?_)
    exact Go.wlp_mono (L.addAll ds r.2 q hr.2 (fun e he => hd e (by simp [he]))) fun c' q' hc => ⟨hr.1.trans hc.1, hc.2⟩

theorem drainUnordered (L : Life knn kfn G P) {tk : Nat → Int} {c : Centroid F} {p : Nat} (h : P p c) (n : Int) :
    Go.wlp (c.drainUnordered tk n) (fun r q => p ≤ q ∧ P q r.2 ∧ ∀ d ∈ r.1, G d) p := by
  by_cases hn : 0 ≤ n
  · refine Go.wlp_of_wp (Go.wp_mono (Centroid.wp_drainUnordered tk c hn p) fun r q hr => ?_)
    obtain ⟨pre, h1, h2, h3, h4, _⟩ := hr
    refine ⟨by omega, L.mono (L.rmSteps h h1) (by omega), fun d hd => L.data h d ?_⟩
    rw [h3] at hd
    rw [h2]
    exact List.mem_append_left _ ((liveReads_sublist tk pre p).subset hd)
  · unfold Centroid.drainUnordered
    exact Go.wlp_bind (Go.wlp_checkMake fun h0 => absurd h0 hn)

theorem drainOrdered (L : Life knn kfn G P) (hf : GoodSearch kfn) {tk : Nat → Int} (hm : MonoClock tk) {c : Centroid F} {p : Nat} (h : P p c)
    (n : Int) : Go.wlp (c.drainOrdered tk n) (fun r q => p ≤ q ∧ P q r.2 ∧ ∀ d ∈ r.1, G d) p := by
  by_cases hn : 0 ≤ n
  · refine Go.wlp_of_wp (Go.wp_mono (Centroid.wp_drainOrdered hm c (by rw [(L.searches h).2]; exact hf) hn p) fun r q hr => ?_)
    obtain ⟨h1, ⟨removed, h2⟩, _, _, _, h3⟩ := hr.facts
    exact ⟨h1, L.mono (L.rmSteps h h2) h1, fun d hd => L.data h d (h3 d hd)⟩
  · unfold Centroid.drainOrdered
    exact Go.wlp_bind (Go.wlp_checkMake fun h0 => absurd h0 hn)

theorem knnLookup (L : Life knn kfn G P) (hk : GoodSearch knn) {tk : Nat → Int} (hm : MonoClock tk) {c : Centroid F} {p : Nat} (h : P p c)
    (v : List F) (n : Int) (drain : Bool) : Go.wlp (c.knnLookup tk v n drain) (fun r q => p ≤ q ∧ P q r.2 ∧ ∀ d ∈ r.1, G d) p := by
  by_cases hn : 0 ≤ n
  · refine Go.wlp_of_wp (Go.wp_mono (Centroid.wp_knnLookup hm c (by rw [(L.searches h).1]; exact hk) v hn drain p) fun r q hr => ?_)
    split at hr
    · obtain ⟨h1, ⟨removed, h2⟩, _, _, _, h3⟩ := hr.facts
      exact ⟨h1, L.mono (L.rmSteps h h2) h1, fun d hd => L.data h d (h3 d hd)⟩
    · obtain ⟨h1, h2, _, _, h3, _⟩ := hr.facts
      obtain ⟨removed, h4, _⟩ := h2.steps
      exact ⟨h1, L.mono (L.rmSteps h h4) h1, fun d hd => L.data h d (h4.sublist.subset (h3 d hd))⟩
  · unfold Centroid.knnLookup
    exact Go.wlp_bind (Go.wlp_checkMake fun h0 => absurd h0 hn)

theorem expire (L : Life knn kfn G P) {tk : Nat → Int} (hm : MonoClock tk) {c : Centroid F} {p : Nat} (h : P p c) :
    Go.wlp (c.expire tk) (fun c' q => p ≤ q ∧ P q c') p := by
  refine Go.wlp_of_wp (Go.wp_mono (Centroid.wp_expire hm c p) fun r q hr => ?_)
  obtain ⟨removed, h4, _⟩ := hr.steps
  exact ⟨hr.le, L.mono (L.rmSteps h h4) hr.le⟩

theorem moveVector (L : Life knn kfn G P) {tk : Nat → Int} (hm : MonoClock tk) {c : Centroid F} {p : Nat} (h : P p c) :
    Go.wlp (c.moveVector tk) (fun r q => p ≤ q ∧ P q r.2) p := by
  refine Go.wlp_of_wp (Go.wp_mono (Centroid.wp_moveVector hm c (L.dim h) p) fun r q hr => ?_)
  obtain ⟨c1, h1, rfl⟩ := hr
  obtain ⟨removed, h4, _⟩ := h1.steps
  have h5 := L.mono (L.rmSteps h h4) h1.le
  refine ⟨h1.le, ?_⟩
  split
  · rename_i ht
    exact L.move h5 ht
  · exact h5

/-- What is kept of a manager. -/
structure Keeps (knn kfn : Search F) (P : Nat → Centroid F → Prop) (p : Nat) (cm : Manager F) : Prop where
  searches : cm.knn = knn ∧ cm.kfn = kfn
  all : ∀ c ∈ cm.centroids, P p c

theorem Keeps.mono {cm : Manager F} {p q : Nat} (h : Keeps knn kfn P p cm) (L : Life knn kfn G P) (hpq : p ≤ q) : Keeps knn kfn P q cm :=
  ⟨h.searches, L.all_mono h.all hpq⟩

theorem onCentroid (L : Life knn kfn G P) {α : Type} {cm : Manager F} {p : Nat} (h : Keeps knn kfn P p cm) (i : Nat)
    (f : Centroid F → Go (α × Centroid F)) {R : α → Prop} (hf : ∀ c, P p c → Go.wlp (f c) (fun r q => p ≤ q ∧ P q r.2 ∧ R r.1) p) :
    Go.wlp (cm.onCentroid i f) (fun r q => p ≤ q ∧ Keeps knn kfn P q r.2 ∧ R r.1) p := by
  unfold Manager.onCentroid
  refine Go.wlp_bind (Go.wlp_idx fun c hc => ?_)
  refine Go.wlp_bind (Go.wlp_mono (hf c (h.all c (List.mem_of_getElem? hc))) fun r q hr => ?_)
  exact Go.wlp_pure ⟨hr.1, ⟨h.searches, all_set (L.all_mono h.all hr.1) hr.2.1 i⟩, hr.2.2⟩

omit [GoFloat F] in
theorem newCentroid {cm : Manager F} {p : Nat} (h : Keeps knn kfn P p cm) (v : List F) :
    Go.wlp (cm.newCentroid v) (fun c q => q = p ∧ c = ⟨v, [], knn, kfn⟩) p := by
  unfold Manager.newCentroid Centroid.new
  refine Go.wlp_bind (Go.wlp_bind (Go.wlp_checkMake fun _ => Go.wlp_pure ?_))
  refine Go.wlp_pure ⟨rfl, ?_⟩
  rw [h.searches.1, h.searches.2]

theorem splitCentroid (L : Life knn kfn G P) {tk : Nat → Int} {cm : Manager F} {p : Nat} (h : Keeps knn kfn P p cm) (i : Nat) (n : Int) :
    Go.wlp (cm.splitCentroid tk i n) (fun r q => p ≤ q ∧ Keeps knn kfn P q r.2 ∧ ∀ c ∈ r.1, P q c) p := by
  unfold Manager.splitCentroid
  cases hc : cm.centroids[i]? with
  | none => exact Go.wlp_pure ⟨Nat.le_refl _, h, by simp⟩
  | some old =>
    have ho := h.all old (List.mem_of_getElem? hc)
    show Go.wlp (if n ≤ 0 then _ else _) _ p
    split
    · exact Go.wlp_pure ⟨Nat.le_refl _, h, by simp⟩
    · refine Go.wlp_bind (Go.wlp_mono (newCentroid h old.vec) fun c q hq => ?_)
      obtain ⟨rfl, rfl⟩ := hq
      refine Go.wlp_bind (Go.wlp_mono (L.drainUnordered ho n) fun r q1 hr => ?_)
      refine Go.wlp_bind (Go.wlp_mono (L.addAll r.1 _ q1 (L.mono (L.fresh ho) hr.1) hr.2.2) fun nc q2 hn => ?_)
      refine Go.wlp_pure ⟨hr.1.trans hn.1, ⟨h.searches, ?_⟩, ?_⟩
      · exact all_set (L.all_mono h.all (hr.1.trans hn.1)) (L.mono hr.2.1 hn.1) i
      · intro c hc
        rw [← Option.some.inj hc]
        exact hn.2

omit [GoFloat F] in
theorem expired_wlp {tk : Nat → Int} {d : DataPoint F} {Q : Bool → Nat → Prop} {p : Nat} (h : ∀ b, Q b (p + 1)) : Go.wlp (d.expired tk) Q p := by
  refine Go.wlp_of_wp ?_
  rw [DataPoint.wp_expired]
  exact h _

theorem addDataPoint (L : Life knn kfn G P) {tk : Nat → Int} {cm : Manager F} {p : Nat} (h : Keeps knn kfn P p cm) {d : DataPoint F} (hd : G d) :
    Go.wlp (cm.addDataPoint tk d) (fun r q => p ≤ q ∧ Keeps knn kfn P q r.2) p := by
  have h1 := h.mono L (Nat.le_succ p)
  unfold Manager.addDataPoint
  refine Go.wlp_bind (expired_wlp fun b => ?_)
  split
  · exact Go.wlp_pure ⟨Nat.le_succ _, h1⟩
  · split
    · refine Go.wlp_bind (Go.wlp_mono (newCentroid h1 d.vec) fun c q hq => ?_)
      obtain ⟨rfl, rfl⟩ := hq
      refine Go.wlp_bind (Go.wlp_mono (L.offer (L.first (p + 1) hd) hd) fun r q hr => ?_)
      refine Go.wlp_pure ⟨(Nat.le_succ p).trans hr.1, ⟨h.searches, fun c hc => ?_⟩⟩
      rcases List.mem_append.1 hc with hc | hc
      · exact L.mono (h1.all c hc) hr.1
      · rw [List.mem_singleton.1 hc]; exact hr.2
    · refine Go.wlp_bind (Go.wlp_lift fun ix _ => ?_)
      split
      · exact Go.wlp_pure ⟨Nat.le_succ _, h1⟩
      · refine Go.wlp_bind (Go.wlp_idx fun c hc => ?_)
        refine Go.wlp_bind (Go.wlp_mono (L.offer (h1.all c (List.mem_of_getElem? hc)) hd) fun r q hr => ?_)
        have hpq : p ≤ q := (Nat.le_succ p).trans hr.1
        have hset := all_set (L.all_mono h1.all hr.1) hr.2
        split
        · exact Go.wlp_pure ⟨hpq, ⟨h.searches, hset _⟩⟩
        · show Go.wlp (if _ then _ else _) _ q
          split
          · refine Go.wlp_bind (Go.wlp_mono (L.splitCentroid (cm := Manager.updateVec { cm with centroids := cm.centroids.set _ r.2 } c.vec r.2.vec)
              ⟨h.searches, hset _⟩ _ _) fun s q' hs => ?_)
            split
            · rename_i nc hnc
              refine Go.wlp_pure ⟨hpq.trans hs.1, ⟨hs.2.1.searches, fun c hc => ?_⟩⟩
              rcases List.mem_append.1 hc with hc | hc
              · exact hs.2.1.all c hc
              · rw [List.mem_singleton.1 hc]; exact hs.2.2 nc hnc
            · exact Go.wlp_pure ⟨hpq.trans hs.1, hs.2.1⟩
          · exact Go.wlp_pure ⟨hpq, ⟨h.searches, hset _⟩⟩

theorem drainLoop (L : Life knn kfn G P) (f : Centroid F → Int → Go (List (DataPoint F) × Centroid F))
    (hf : ∀ p c n, P p c → Go.wlp (f c n) (fun r q => p ≤ q ∧ P q r.2 ∧ True) p) : ∀ (es : List (Nat × Nat)) (cm : Manager F)
    (res : List (DataPoint F)) (p : Nat), Keeps knn kfn P p cm →
    Go.wlp (Manager.drainLoop f es cm res) (fun r q => p ≤ q ∧ Keeps knn kfn P q r.2) p
  | [], cm, res, p, h => by
    unfold Manager.drainLoop
    exact Go.wlp_pure ⟨Nat.le_refl _, h⟩
  | (i, n) :: es, cm, res, p, h => by
    unfold Manager.drainLoop
    refine Go.wlp_bind (Go.wlp_mono (L.onCentroid h i _ (R := fun _ => True) fun c hc => hf p c n hc) fun r q hr => ?_)
    exact Go.wlp_mono (L.drainLoop f hf es r.2 _ q hr.2.1) fun _ _ hx => ⟨hr.1.trans hx.1, hx.2⟩

theorem expireLoop (L : Life knn kfn G P) {tk : Nat → Int} (hm : MonoClock tk) : ∀ (is : List Nat) (cm : Manager F) (p : Nat),
    Keeps knn kfn P p cm → Go.wlp (Manager.expireLoop tk is cm) (fun cm' q => p ≤ q ∧ Keeps knn kfn P q cm') p
  | [], cm, p, h => by
    unfold Manager.expireLoop
    exact Go.wlp_pure ⟨Nat.le_refl _, h⟩
  | i :: is, cm, p, h => by
    unfold Manager.expireLoop
    refine Go.wlp_bind (Go.wlp_mono (L.onCentroid h i _ (R := fun _ => True) fun c hc => ?_) fun r q hr => ?_)
    · exact Go.wlp_bind (Go.wlp_mono (L.expire hm hc) fun c' q hq => Go.wlp_pure ⟨hq.1, hq.2, trivial⟩)
    · exact Go.wlp_mono (L.expireLoop hm is r.2 q hr.2.1) fun _ _ hx => ⟨hr.1.trans hx.1, hx.2⟩

theorem moveAll (L : Life knn kfn G P) {tk : Nat → Int} (hm : MonoClock tk) : ∀ (cs : List (Centroid F)) (p : Nat), (∀ c ∈ cs, P p c) →
    Go.wlp (Manager.moveAll tk cs) (fun cs' q => p ≤ q ∧ ∀ c ∈ cs', P q c) p
  | [], p, h => by
    unfold Manager.moveAll
    exact Go.wlp_pure ⟨Nat.le_refl _, by simp⟩
  | c :: cs, p, h => by
    unfold Manager.moveAll
    refine Go.wlp_bind (Go.wlp_mono (L.moveVector hm (h c (by simp))) fun r q hr => ?_)
    refine Go.wlp_bind (Go.wlp_mono (L.moveAll hm cs q (L.all_mono (fun x hx => h x (by simp [hx])) hr.1)) fun rs q' hrs => ?_)
    refine Go.wlp_pure ⟨hr.1.trans hrs.1, fun x hx => ?_⟩
    rcases List.mem_cons.1 hx with rfl | hx
    · exact L.mono hr.2 hrs.1
    · exact hrs.2 x hx

theorem moveManager (L : Life knn kfn G P) {tk : Nat → Int} (hm : MonoClock tk) {cm : Manager F} {p : Nat} (h : Keeps knn kfn P p cm) :
    Go.wlp (cm.moveVector tk) (fun r q => p ≤ q ∧ Keeps knn kfn P q r.2) p := by
  unfold Manager.moveVector
  refine Go.wlp_bind (Go.wlp_mono (L.moveAll hm cm.centroids p h.all) fun cs q hq => ?_)
  show Go.wlp (if _ then _ else _) _ q
  split
  · exact Go.wlp_pure ⟨hq.1, ⟨h.searches, hq.2⟩⟩
  · exact Go.wlp_pure ⟨hq.1, ⟨h.searches, hq.2⟩⟩

theorem passOn (L : Life knn kfn G P) {tk : Nat → Int} (k : Nat) (rs : List Nat) : ∀ (ds : List (DataPoint F)) (h : List (Centroid F)) (p : Nat),
    (∀ c ∈ h, P p c) → (∀ d ∈ ds, G d) → Go.wlp (Centroid.distributeLoop tk k rs ds h) (fun h' q => p ≤ q ∧ ∀ c ∈ h', P q c) p
  | [], h, p, hh, _ => by
    unfold Centroid.distributeLoop
    exact Go.wlp_pure ⟨Nat.le_refl _, hh⟩
  | d :: ds, h, p, hh, hd => by
    have go : ∀ (h1 : List (Centroid F)) (q : Nat), p ≤ q → (∀ c ∈ h1, P q c) →
        Go.wlp (Centroid.distributeLoop tk k rs ds h1) (fun h' q' => p ≤ q' ∧ ∀ c ∈ h', P q' c) q := fun h1 q hpq hh1 =>
      Go.wlp_mono (L.passOn k rs ds h1 q hh1 (fun e he => hd e (by simp [he]))) fun _ _ hx => ⟨hpq.trans hx.1, hx.2⟩
    unfold Centroid.distributeLoop
    refine Go.wlp_bind (Go.wlp_idx fun c hc => ?_)
    refine Go.wlp_bind (Go.wlp_lift fun ix _ => ?_)
    split
    · refine Go.wlp_bind (Go.wlp_mono (L.offer (hh c (List.mem_of_getElem? hc)) (hd d (by simp))) fun r q hr => ?_)
      exact go _ q hr.1 (all_set (L.all_mono hh hr.1) hr.2 _)
    · refine Go.wlp_bind (Go.wlp_idx fun rj _ => Go.wlp_bind (Go.wlp_idx fun rc hrc => ?_))
      refine Go.wlp_bind (Go.wlp_mono (L.offer (hh rc (List.mem_of_getElem? hrc)) (hd d (by simp))) fun r q hr => ?_)
      have h1 := all_set (L.all_mono hh hr.1) hr.2 rj
      show Go.wlp (if r.1 = true then _ else _) _ q
      split
      · exact go _ q hr.1 h1
      · refine Go.wlp_bind (Go.wlp_idx fun c1 hc1 => ?_)
        refine Go.wlp_bind (Go.wlp_mono (L.offer (h1 c1 (List.mem_of_getElem? hc1)) (hd d (by simp))) fun r' q' hr' => ?_)
        exact go _ q' (hr.1.trans hr'.1) (all_set (L.all_mono h1 hr'.1) hr'.2 _)

theorem distribute (L : Life knn kfn G P) (hf : GoodSearch kfn) {tk : Nat → Int} (hm : MonoClock tk) {h : List (Centroid F)} {p : Nat}
    (hh : ∀ c ∈ h, P p c) (k : Nat) (n : Int) (rs : List Nat) :
    Go.wlp (Centroid.distribute tk h k n rs) (fun h' q => p ≤ q ∧ ∀ c ∈ h', P q c) p := by
  unfold Centroid.distribute
  split
  · exact Go.wlp_pure ⟨Nat.le_refl _, hh⟩
  · refine Go.wlp_bind (Go.wlp_idx fun c hc => ?_)
    refine Go.wlp_bind (Go.wlp_mono (L.drainOrdered hf hm (hh c (List.mem_of_getElem? hc)) n) fun r q hr => ?_)
    exact Go.wlp_mono (L.passOn k rs r.1 _ q (all_set (L.all_mono hh hr.1) hr.2.1 _) hr.2.2) fun _ _ hx => ⟨hr.1.trans hx.1, hx.2⟩

theorem distributeAll (L : Life knn kfn G P) (hf : GoodSearch kfn) {tk : Nat → Int} (hm : MonoClock tk) (rs : List Nat) :
    ∀ (es : List (Nat × Nat)) (h : List (Centroid F)) (p : Nat), (∀ c ∈ h, P p c) →
    Go.wlp (Manager.distributeLoop tk rs es h) (fun h' q => p ≤ q ∧ ∀ c ∈ h', P q c) p
  | [], h, p, hh => by
    unfold Manager.distributeLoop
    exact Go.wlp_pure ⟨Nat.le_refl _, hh⟩
  | (i, n) :: es, h, p, hh => by
    unfold Manager.distributeLoop
    refine Go.wlp_bind (Go.wlp_mono (L.distribute hf hm hh i n rs) fun h' q hq => ?_)
    exact Go.wlp_mono (L.distributeAll hf hm rs es h' q hq.2) fun _ _ hx => ⟨hq.1.trans hx.1, hx.2⟩

theorem distributeInternal (L : Life knn kfn G P) (hf : GoodSearch kfn) {tk : Nat → Int} (hm : MonoClock tk) {cm : Manager F} {p : Nat}
    (h : Keeps knn kfn P p cm) (ord : List (Nat × Nat) → List (Nat × Nat)) (n : Int) :
    Go.wlp (cm.distributeInternal tk ord n) (fun cm' q => p ≤ q ∧ Keeps knn kfn P q cm') p := by
  unfold Manager.distributeInternal Manager.distribute
  refine Go.wlp_bind ?_
  split
  · exact Go.wlp_pure (Go.wlp_pure ⟨Nat.le_refl _, h⟩)
  · refine Go.wlp_bind (Go.wlp_mono (L.distributeAll hf hm _ _ _ p (by simpa using h.all)) fun h' q hq => ?_)
    refine Go.wlp_bind (Go.wlp_mono (L.moveManager hm (cm := { cm with centroids := h'.take cm.centroids.length })
      ⟨h.searches, fun c hc => hq.2 c (List.mem_of_mem_take hc)⟩) fun r q' hr => ?_)
    exact Go.wlp_pure (Go.wlp_pure ⟨hq.1.trans hr.1, hr.2⟩)

theorem lookupTake (L : Life knn kfn G P) {tk : Nat → Int} (k : Int) (drain : Bool) : ∀ (ds res : List (DataPoint F)) (c : Centroid F) (p : Nat),
    P p c → (∀ d ∈ ds, G d) → Go.wlp (Manager.lookupTake tk k drain ds res c) (fun r q => p ≤ q ∧ P q r.2 ∧ True) p
  | [], res, c, p, h, _ => by
    unfold Manager.lookupTake
    exact Go.wlp_pure ⟨Nat.le_refl _, h, trivial⟩
  | d :: ds, res, c, p, h, hd => by
    have hd' : ∀ e ∈ ds, G e := fun e he => hd e (by simp [he])
    unfold Manager.lookupTake
    split
    · exact L.lookupTake k drain ds _ c p h hd'
    · split
      · refine Go.wlp_bind (Go.wlp_mono (L.offer h (hd d (by simp))) fun r q hr => ?_)
        exact Go.wlp_mono (L.lookupTake k drain ds res r.2 q hr.2 hd') fun _ _ hx => ⟨hr.1.trans hx.1, hx.2⟩
      · exact L.lookupTake k drain ds res c p h hd'

theorem lookupLoop (L : Life knn kfn G P) (hk : GoodSearch knn) {tk : Nat → Int} (hm : MonoClock tk) (v : List F) (k : Int) (drain : Bool) :
    ∀ (is : List Nat) (cm : Manager F) (res : List (DataPoint F)) (p : Nat), Keeps knn kfn P p cm →
    Go.wlp (Manager.lookupLoop tk v k drain is cm res) (fun r q => p ≤ q ∧ Keeps knn kfn P q r.2) p
  | [], cm, res, p, h => by
    unfold Manager.lookupLoop
    exact Go.wlp_pure ⟨Nat.le_refl _, h⟩
  | i :: is, cm, res, p, h => by
    unfold Manager.lookupLoop
    split
    · exact Go.wlp_pure ⟨Nat.le_refl _, h⟩
    · refine Go.wlp_bind (Go.wlp_mono (L.onCentroid h i _ (R := fun _ => True) fun c hc => ?_) fun r q hr => ?_)
      · refine Go.wlp_bind (Go.wlp_mono (L.knnLookup hk hm hc v _ drain) fun r q hr => ?_)
        exact Go.wlp_mono (L.lookupTake k drain r.1 res r.2 q hr.2.1 hr.2.2) fun _ _ hx => ⟨hr.1.trans hx.1, hx.2⟩
      · exact Go.wlp_mono (L.lookupLoop hk hm v k drain is r.2 r.1 q hr.2.1) fun _ _ hx => ⟨hr.1.trans hx.1, hx.2⟩

theorem deleteAll : ∀ (js : List Nat) (cm : Manager F) (p : Nat), Keeps knn kfn P p cm →
    Go.wlp (Manager.deleteAll js cm) (fun cm' q => p ≤ q ∧ Keeps knn kfn P q cm') p
  | [], cm, p, h => by
    unfold Manager.deleteAll
    exact Go.wlp_pure ⟨Nat.le_refl _, h⟩
  | j :: js, cm, p, h => by
    unfold Manager.deleteAll Manager.deleteAt
    refine Go.wlp_bind (Go.wlp_bind (Go.wlp_idx fun c _ => Go.wlp_pure ?_))
    exact deleteAll js _ p ⟨h.searches, fun x hx => h.all x ((List.eraseIdx_sublist _ _).subset hx)⟩

omit [GoFloat F] in
theorem getAll_wlp (cm : Manager F) : ∀ (is : List Nat) (p : Nat), Go.wlp (Manager.getAll is cm) (fun _ q => q = p) p
  | [], p => by
    unfold Manager.getAll
    exact Go.wlp_pure rfl
  | i :: is, p => by
    unfold Manager.getAll
    refine Go.wlp_bind (Go.wlp_idx fun c _ => Go.wlp_bind (Go.wlp_mono (getAll_wlp cm is p) fun cs q hq => ?_))
    exact Go.wlp_pure hq

theorem nearestCentroids {cm : Manager F} {p : Nat} (h : Keeps knn kfn P p cm) (v : List F) (n : Int) (drain : Bool) :
    Go.wlp (cm.nearestCentroids v n drain) (fun r q => p ≤ q ∧ Keeps knn kfn P q r.2) p := by
  unfold Manager.nearestCentroids
  refine Go.wlp_bind (Go.wlp_lift fun ix _ => ?_)
  split
  · exact Go.wlp_pure ⟨Nat.le_refl _, h⟩
  · refine Go.wlp_bind (Go.wlp_checkMake fun _ => Go.wlp_bind (Go.wlp_mono (getAll_wlp cm ix p) fun cs q hq => ?_))
    subst hq
    split
    · exact Go.wlp_bind (Go.wlp_mono (deleteAll _ cm q h) fun cm' q' hq => Go.wlp_pure hq)
    · exact Go.wlp_pure ⟨Nat.le_refl _, h⟩

theorem splitLoop (L : Life knn kfn G P) {tk : Nat → Int} (pred : Centroid F → Bool) : ∀ (is : List Nat) (cm : Manager F) (acc : List (Centroid F))
    (p : Nat), Keeps knn kfn P p cm → (∀ c ∈ acc, P p c) →
    Go.wlp (Manager.splitLoop tk pred is cm acc) (fun r q => p ≤ q ∧ Keeps knn kfn P q r.2 ∧ ∀ c ∈ r.1, P q c) p
  | [], cm, acc, p, h, ha => by
    unfold Manager.splitLoop
    exact Go.wlp_pure ⟨Nat.le_refl _, h, ha⟩
  | i :: is, cm, acc, p, h, ha => by
    unfold Manager.splitLoop
    refine Go.wlp_bind (Go.wlp_idx fun c _ => ?_)
    split
    · exact L.splitLoop pred is cm acc p h ha
    · refine Go.wlp_bind (Go.wlp_mono (L.splitCentroid h i _) fun r q hr => ?_)
      split
      · rename_i nc hnc
        refine Go.wlp_mono (L.splitLoop pred is r.2 _ q hr.2.1 fun x hx => ?_) fun _ _ hx => ⟨hr.1.trans hx.1, hx.2⟩
        rcases List.mem_append.1 hx with hx | hx
        · exact L.mono (ha x hx) hr.1
        · rw [List.mem_singleton.1 hx]; exact hr.2.2 nc hnc
      · exact Go.wlp_mono (L.splitLoop pred is r.2 acc q hr.2.1 (L.all_mono ha hr.1)) fun _ _ hx => ⟨hr.1.trans hx.1, hx.2⟩

theorem splitCentroids (L : Life knn kfn G P) {tk : Nat → Int} (pred : Centroid F → Bool) {cm : Manager F} {p : Nat} (h : Keeps knn kfn P p cm) :
    Go.wlp (cm.splitCentroids tk pred) (fun cm' q => p ≤ q ∧ Keeps knn kfn P q cm') p := by
  unfold Manager.splitCentroids
  refine Go.wlp_bind (Go.wlp_mono (L.splitLoop pred _ cm [] p h (by simp)) fun r q hr => ?_)
  refine Go.wlp_pure ⟨hr.1, ⟨hr.2.1.searches, fun c hc => ?_⟩⟩
  rcases List.mem_append.1 hc with hc | hc
  · exact hr.2.1.all c hc
  · exact hr.2.2 c hc

theorem mergeInner (L : Life knn kfn G P) {tk : Nat → Int} (pred : Centroid F → Bool) (i : Nat) : ∀ (js marks : List Nat) (cs : List (Centroid F))
    (p : Nat), (∀ c ∈ cs, P p c) →
    Go.wlp (Manager.mergeInner tk pred i js marks cs) (fun r q => p ≤ q ∧ ∀ c ∈ r.2, P q c) p
  | [], marks, cs, p, h => by
    unfold Manager.mergeInner
    exact Go.wlp_pure ⟨Nat.le_refl _, h⟩
  | j :: js, marks, cs, p, h => by
    unfold Manager.mergeInner
    split
    · exact L.mergeInner pred i js marks cs p h
    · refine Go.wlp_bind (Go.wlp_idx fun other ho => ?_)
      refine Go.wlp_bind (Go.wlp_mono (L.drainUnordered (h other (List.mem_of_getElem? ho)) _) fun r q hr => ?_)
      have h1 := all_set (L.all_mono h hr.1) hr.2.1 j
      refine Go.wlp_bind (Go.wlp_idx fun cand hc => ?_)
      refine Go.wlp_bind (Go.wlp_mono (L.addAll r.1 cand q (h1 cand (List.mem_of_getElem? hc)) hr.2.2) fun cand' q' hc' => ?_)
      have h2 := all_set (L.all_mono h1 hc'.1) hc'.2 i
      have hpq := hr.1.trans hc'.1
      split
      · exact Go.wlp_pure ⟨hpq, h2⟩
      · exact Go.wlp_mono (L.mergeInner pred i js _ _ q' h2) fun _ _ hx => ⟨hpq.trans hx.1, hx.2⟩

theorem mergeOuter (L : Life knn kfn G P) {tk : Nat → Int} (pred : Centroid F → Bool) : ∀ (is marks : List Nat) (cm : Manager F) (p : Nat),
    Keeps knn kfn P p cm → Go.wlp (Manager.mergeOuter tk pred is marks cm) (fun r q => p ≤ q ∧ Keeps knn kfn P q r.2) p
  | [], marks, cm, p, h => by
    unfold Manager.mergeOuter
    exact Go.wlp_pure ⟨Nat.le_refl _, h⟩
  | i :: is, marks, cm, p, h => by
    unfold Manager.mergeOuter
    refine Go.wlp_bind (Go.wlp_idx fun cand _ => ?_)
    split
    · exact L.mergeOuter pred is marks cm p h
    · refine Go.wlp_bind (Go.wlp_lift fun ix _ => ?_)
      refine Go.wlp_bind (Go.wlp_mono (L.mergeInner pred i ix marks cm.centroids p h.all) fun r q hr => ?_)
      refine Go.wlp_bind (Go.wlp_idx fun cand' _ => ?_)
      exact Go.wlp_mono (L.mergeOuter pred is r.1 _ q ⟨h.searches, hr.2⟩) fun _ _ hx => ⟨hr.1.trans hx.1, hx.2⟩

theorem mergeCentroids (L : Life knn kfn G P) {tk : Nat → Int} (pred : Centroid F → Bool) {cm : Manager F} {p : Nat} (h : Keeps knn kfn P p cm) :
    Go.wlp (cm.mergeCentroids tk pred) (fun cm' q => p ≤ q ∧ Keeps knn kfn P q cm') p := by
  unfold Manager.mergeCentroids
  refine Go.wlp_bind (Go.wlp_mono (L.mergeOuter pred _ [] cm p h) fun r q hr => ?_)
  exact Go.wlp_mono (deleteAll _ r.2 q hr.2) fun _ _ hx => ⟨hr.1.trans hx.1, hx.2⟩

/-- One call. -/
theorem call (L : Life knn kfn G P) (hk : GoodSearch knn) (hf : GoodSearch kfn) {tk : Nat → Int} (hm : MonoClock tk) (o : ManagerCall F)
    {w : ManagerWorld F} {p : Nat} (h : Keeps knn kfn P p w.cm) (ht : o ≠ .memTrim) (hd : ∀ d, o = .add d → G d) :
    Go.wlp (o.run tk w) (fun w' q => p ≤ q ∧ Keeps knn kfn P q w'.cm) p := by
  cases o with
  | add d => exact Go.wlp_bind (Go.wlp_mono (L.addDataPoint h (hd d rfl)) fun r q hr => Go.wlp_pure hr)
  | drainUnordered n ord =>
    refine Go.wlp_bind (Go.wlp_mono ?_ fun r q hr => Go.wlp_pure hr)
    unfold Manager.drainUnordered
    refine Go.wlp_bind (Go.wlp_checkMake fun _ => L.drainLoop _ (fun p c n hc => ?_) _ _ _ p h)
    exact Go.wlp_mono (L.drainUnordered hc n) fun _ _ hx => ⟨hx.1, hx.2.1, trivial⟩
  | drainOrdered n ord =>
    refine Go.wlp_bind (Go.wlp_mono ?_ fun r q hr => Go.wlp_pure hr)
    unfold Manager.drainOrdered
    refine Go.wlp_bind (Go.wlp_checkMake fun _ => L.drainLoop _ (fun p c n hc => ?_) _ _ _ p h)
    exact Go.wlp_mono (L.drainOrdered hf hm hc n) fun _ _ hx => ⟨hx.1, hx.2.1, trivial⟩
  | expire => exact Go.wlp_bind (Go.wlp_mono (L.expireLoop hm _ _ p h) fun r q hr => Go.wlp_pure hr)
  | memTrim => exact absurd rfl ht
  | moveVector => exact Go.wlp_bind (Go.wlp_mono (L.moveManager hm h) fun r q hr => Go.wlp_pure hr)
  | distributeInternal n ord => exact Go.wlp_bind (Go.wlp_mono (L.distributeInternal hf hm h ord n) fun r q hr => Go.wlp_pure hr)
  | knnLookup v k drain =>
    refine Go.wlp_bind (Go.wlp_mono ?_ fun r q hr => Go.wlp_pure hr)
    unfold Manager.knnLookup
    exact Go.wlp_bind (Go.wlp_checkMake fun _ => Go.wlp_bind (Go.wlp_lift fun ix _ => L.lookupLoop hk hm v k drain ix _ _ p h))
  | nearestCentroids v n drain => exact Go.wlp_bind (Go.wlp_mono (nearestCentroids h v n drain) fun r q hr => Go.wlp_pure hr)
  | splitCentroids pred => exact Go.wlp_bind (Go.wlp_mono (L.splitCentroids pred h) fun r q hr => Go.wlp_pure hr)
  | mergeCentroids pred => exact Go.wlp_bind (Go.wlp_mono (L.mergeCentroids pred h) fun r q hr => Go.wlp_pure hr)

theorem calls (L : Life knn kfn G P) (hk : GoodSearch knn) (hf : GoodSearch kfn) {tk : Nat → Int} (hm : MonoClock tk) :
    ∀ (os : List (ManagerCall F)) (w : ManagerWorld F) (p : Nat), Keeps knn kfn P p w.cm →
    (∀ o ∈ os, o ≠ .memTrim ∧ ∀ d, o = .add d → G d) →
    Go.wlp (runManagerCalls tk os w) (fun w' q => p ≤ q ∧ Keeps knn kfn P q w'.cm) p
  | [], w, p, h, _ => by
    unfold runManagerCalls
    exact Go.wlp_pure ⟨Nat.le_refl _, h⟩
  | o :: os, w, p, h, ho => by
    unfold runManagerCalls
    refine Go.wlp_bind (Go.wlp_mono (L.call hk hf hm o h (ho o (by simp)).1 (ho o (by simp)).2) fun w' q hq => ?_)
    exact Go.wlp_mono (L.calls hk hf hm os w' q hq.2 (fun x hx => ho x (by simp [hx]))) fun _ _ hx => ⟨hq.1.trans hx.1, hx.2⟩

theorem run (L : Life knn kfn G P) (hk : GoodSearch knn) (hf : GoodSearch kfn) {tk : Nat → Int} (hm : MonoClock tk) (initVec : List F)
    (initCap threshold : Int) (os : List (ManagerCall F)) (p : Nat) (ho : ∀ o ∈ os, o ≠ .memTrim ∧ ∀ d, o = .add d → G d) :
    Go.wlp (runManager tk initVec initCap threshold knn kfn os) (fun w' q => p ≤ q ∧ Keeps knn kfn P q w'.cm) p := by
  unfold runManager Manager.new
  refine Go.wlp_bind (Go.wlp_bind (Go.wlp_checkMake fun _ => Go.wlp_pure ?_))
  exact L.calls hk hf hm os _ p ⟨⟨rfl, rfl⟩, by simp⟩ ho

end Life
end Trypo
