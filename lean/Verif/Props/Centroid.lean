import Verif.Proofs.CentroidHistory
import Verif.Model.F64

/-!
# Properties C11-C18 and the centroid parts of C19, C58

All theorems hold for every clock that does not run backwards, every starting position `p` of the clock, and (unless
stated for `ℝ`) every scalar type. A result `.ok _` says that the call does not panic.
-/

set_option linter.unusedSectionVars false
set_option linter.unusedVariables false

namespace Trypo
open GoFloat Spec

variable {F : Type} [GoFloat F]

/-! ### C11 -/

/-- C11. `AddDataPoint` answers true exactly for live datapoints of the centroid's dimension; it then stores the
datapoint, otherwise nothing changes. -/
theorem C11_addDataPoint (tk : Nat → Int) (c : Centroid F) (d : DataPoint F) (p : Nat) :
    ∃ b c' p', c.addDataPoint tk d p = .ok ((b, c'), p') ∧
      (b = true ↔ d.vec.length = c.vec.length ∧ ¬ Dead (tk p) d) ∧
      (b = true → c'.dps = c.dps ++ [d]) ∧ (b = false → c' = c) := by
  have : Go.wp (c.addDataPoint tk d) (fun r _ => (r.1 = true ↔ d.vec.length = c.vec.length ∧ ¬ Dead (tk p) d) ∧
      (r.1 = true → r.2.dps = c.dps ++ [d]) ∧ (r.1 = false → r.2 = c)) p := by
    rw [Centroid.wp_addDataPoint]
    by_cases hl : d.vec.length = c.vec.length
    · by_cases he : d.expiredAt (tk p) = true
      · simp [hl, he, (expiredAt_iff _ _).1 he]
      · have : ¬ Dead (tk p) d := fun h => he ((expiredAt_iff _ _).2 h)
        simp [hl, he, this, Centroid.addRaw]
    · simp [hl]
  obtain ⟨r, p', h1, h2⟩ := Go.wp_iff.1 this
  exact ⟨r.1, r.2, p', h1, h2⟩

/-! ### C12, C19 and conservation over histories -/

/-- C12. In exact arithmetic, after every history of calls other than `MemTrim` on any number of centroids (including
calls of `DistributeDataPoints` between them), the history does not panic and every centroid vector is the mean of the
vectors of its datapoints. -/
theorem C12_vec_is_mean {tk : Nat → Int} (hm : MonoClock tk) (os : List (CentroidCall ℝ)) (p : Nat)
    (h : ∀ o ∈ os, o.notTrim ∧ o.nonneg ∧ o.goodSearch) :
    ∃ w p', runCentroidCalls tk os ⟨[], [], []⟩ p = .ok (w, p') ∧
      ∀ c ∈ w.cs, IsMean c.vec (c.dps.map (fun d => d.vec)) := by
  have := wp_calls hm Centroid.MeanInv (fun v knn kfn j => by simp [compSum])
    (fun c c' hd hM he => he.mean hd hM)
    (fun c hd hM q => Go.wp_mono (Centroid.meanInv_moveVector hm c hd q) (fun r _ hr => hr.1 (.inr hM)))
    os _ p (worldInv_empty tk p) (by simp) (fun o ho => ⟨.inl (h o ho).1, (h o ho).2⟩)
  obtain ⟨w, p', h1, _, _, h2⟩ := Go.wp_iff.1 this
  exact ⟨w, p', h1, h2⟩

/-- C19 (centroids). After every history of calls every stored datapoint has the dimension of the centroid holding it. -/
theorem C19_centroid_dimensions {tk : Nat → Int} (hm : MonoClock tk) (os : List (CentroidCall F)) (p : Nat)
    (h : ∀ o ∈ os, o.nonneg ∧ o.goodSearch) :
    ∃ w p', runCentroidCalls tk os ⟨[], [], []⟩ p = .ok (w, p') ∧
      ∀ c ∈ w.cs, ∀ d ∈ c.dps, d.vec.length = c.vec.length := by
  have := wp_calls hm (fun _ => True) (fun _ _ _ => trivial) (fun _ _ _ _ _ => trivial)
    (fun c hd hM q => Go.wp_mono (Centroid.wp_moveVector hm c hd q) (fun _ _ _ => trivial))
    os _ p (worldInv_empty tk p) (by simp) (fun o ho => ⟨.inr (fun _ => trivial), h o ho⟩)
  obtain ⟨w, p', h1, _, h2, _⟩ := Go.wp_iff.1 this
  exact ⟨w, p', h1, h2.dim⟩

/-- C14-C18 over histories: whatever calls are made on whatever centroids, the accepted datapoints are exactly those
stored, those handed out, and expired ones. -/
theorem C18_history_conserves {tk : Nat → Int} (hm : MonoClock tk) (os : List (CentroidCall F)) (p : Nat)
    (h : ∀ o ∈ os, o.nonneg ∧ o.goodSearch) :
    ∃ w p', runCentroidCalls tk os ⟨[], [], []⟩ p = .ok (w, p') ∧
      Conserved (tk p') w.accepted w.stored w.out := by
  have := wp_calls hm (fun _ => True) (fun _ _ _ => trivial) (fun _ _ _ _ _ => trivial)
    (fun c hd hM q => Go.wp_mono (Centroid.wp_moveVector hm c hd q) (fun _ _ _ => trivial))
    os _ p (worldInv_empty tk p) (by simp) (fun o ho => ⟨.inr (fun _ => trivial), h o ho⟩)
  obtain ⟨w, p', h1, _, h2, _⟩ := Go.wp_iff.1 this
  exact ⟨w, p', h1, h2.conserved⟩

/-- The library searches keep the search contract, so they meet the hypothesis `goodSearch` above. -/
theorem prefabs_goodSearch [LawfulCmp F] :
    GoodSearch (knnCos : Search F) ∧ GoodSearch (kfnCos : Search F) ∧ GoodSearch (knnEuc : Search F) ∧
      GoodSearch (kfnEuc : Search F) := searchOK_prefabs

/-! ### C13 -/

/-- C13 as stated is false of the code: a centroid built by two accepted `AddDataPoint` calls, vector 2 = mean of 1 and 3,
nothing expired; after `MemTrim` it holds the same datapoints but its vector is 3. -/
theorem C13_memTrim_refuted :
    ∃ (os : List (CentroidCall F64)) (w w' : CentroidWorld F64) (c c' : Centroid F64) (p p' : Nat),
      runCentroidCalls (fun _ => 0) os ⟨[], [], []⟩ 0 = .ok (w, p) ∧
      runCentroidCalls (fun _ => 0) [.memTrim 0] w p = .ok (w', p') ∧
      w.cs[0]? = some c ∧ w'.cs[0]? = some c' ∧ (∀ o ∈ os, o.nonneg ∧ o.goodSearch) ∧
      c.vec = (vecMean (c.dps.map (fun d => d.vec))).1 ∧ c'.dps = c.dps ∧
      c'.vec ≠ (vecMean (c'.dps.map (fun d => d.vec))).1 := by
  let c0 : Centroid F64 := ⟨[F64.ofInt 0], [], knnEuc, kfnEuc⟩
  let d1 : DataPoint F64 := ⟨[F64.ofInt 1], [], 0, false⟩
  let d2 : DataPoint F64 := ⟨[F64.ofInt 3], [], 0, false⟩
  refine ⟨[.create [F64.ofInt 0] 0 knnEuc kfnEuc, .add 0 d1, .add 0 d2],
    ⟨[(c0.addRaw d1).addRaw d2], [d2, d1], []⟩,
    ⟨[{ ((((c0.addRaw d1).addRaw d2).rmP 0 d1).rmP 0 d2) with dps := [d1, d2] }], [d2, d1], []⟩,
    (c0.addRaw d1).addRaw d2, { ((((c0.addRaw d1).addRaw d2).rmP 0 d1).rmP 0 d2) with dps := [d1, d2] }, 2, 4,
    ?_, ?_, rfl, rfl, ?_, ?_, ?_, ?_⟩
  · rfl
  · rfl
  · intro o ho
    simp only [List.mem_cons, List.not_mem_nil, or_false] at ho
    rcases ho with rfl | rfl | rfl
    · exact ⟨by show (0 : Int) ≤ 0; omega, prefabs_goodSearch.2.2.1, prefabs_goodSearch.2.2.2⟩
    · exact ⟨trivial, trivial⟩
    · exact ⟨trivial, trivial⟩
  · decide +kernel
  · rfl
  · decide +kernel

/-- C13, data part. `MemTrim` keeps, in order, every datapoint still live when it returns, and drops every one already
expired when it was called; dimensions stay consistent. Missing from C13: the vector is not adjusted
(`C13_memTrim_refuted`). -/
theorem C13_memTrim_partial {tk : Nat → Int} (hm : MonoClock tk) (c : Centroid F) (p : Nat) :
    ∃ c' p', c.memTrim tk p = .ok (c', p') ∧ Survivors (tk p) (tk p') c.dps c'.dps ∧
      ((∀ d ∈ c.dps, d.vec.length = c.vec.length) → c'.vec.length = c.vec.length) := by
  obtain ⟨c', p', h1, c0, h2, h3, h4⟩ := Go.wp_iff.1 (Centroid.wp_memTrim tk c p)
  subst h3
  have a := liveReads_lower hm c.dps p p' (by omega)
  have b := liveReads_upper hm c.dps p p (Nat.le_refl _)
  rw [Centroid.live_filter] at a b
  exact ⟨_, p', h1, ⟨a, b⟩, fun hd => (h2.dim hd).1⟩

/-! ### C14 -/

/-- C14. `DrainUnordered(n)` takes a prefix of the stored datapoints; what it returns is that prefix without the expired
ones (every one live at the end of the call is returned, none that was expired at its start), at most `n`, and less than
`n` only if nothing is left. -/
theorem C14_drainUnordered {tk : Nat → Int} (hm : MonoClock tk) (c : Centroid F) {n : Int} (hn : 0 ≤ n) (p : Nat) :
    ∃ out c' p', c.drainUnordered tk n p = .ok ((out, c'), p') ∧
      (∃ taken, c.dps = taken ++ c'.dps ∧ Survivors (tk p) (tk p') taken out) ∧
      Conserved (tk p') c.dps c'.dps out ∧ AllLive (tk p) out ∧
      (out.length : Int) ≤ n ∧ ((out.length : Int) < n → c'.dps = []) := by
  obtain ⟨⟨out, c'⟩, p', h0, pre, h1, h2, h3, h4, h5, h6, h7⟩ := Go.wp_iff.1 (Centroid.wp_drainUnordered tk c hn p)
  have a := liveReads_lower hm pre p p' (by omega)
  have b := liveReads_upper hm pre p p (Nat.le_refl _)
  rw [Centroid.live_filter] at a b
  have hsv : Survivors (tk p) (tk p') pre out := by simp only at h3; subst h3; exact ⟨a, b⟩
  obtain ⟨lost, e1, e2⟩ := liveReads_lost hm pre p p' (by omega)
  refine ⟨out, c', p', h0, ⟨pre, h2, hsv⟩, ⟨lost, ?_, e2⟩, Centroid.Survivors.live hsv, h5, h6⟩
  simp only at h2 h3
  rw [h2, h3]; permc [e1]

/-- C14 with a clock that stands still during the call: exactly the first `n` live datapoints are returned. -/
theorem C14_drainUnordered_exact {tk : Nat → Int} {t : Int} (hm : ∀ q, tk q = t) (c : Centroid F) (n : Nat) (p : Nat) :
    ∃ out c' p', c.drainUnordered tk n p = .ok ((out, c'), p') ∧
      out = (c.dps.filter (fun d => ¬ Dead t d)).take n ∧
      c'.dps.filter (fun d => ¬ Dead t d) = (c.dps.filter (fun d => ¬ Dead t d)).drop n := by
  have hmono : MonoClock tk := fun a b _ => by rw [hm, hm]
  obtain ⟨out, c', p', h1, ⟨taken, h2, h3⟩, _, _, h4, h5⟩ := C14_drainUnordered hmono c (n := n) (by omega) p
  rw [hm, hm] at h3
  have heq : out = taken.filter (fun d => ¬ Dead t d) :=
    (h3.drops.antisymm h3.keeps)
  refine ⟨out, c', p', h1, ?_, ?_⟩
  · rw [h2, List.filter_append, ← heq]
    by_cases hl : out.length < n
    · rw [h5 (by omega)]
      simp only [List.filter_nil, List.append_nil]
      rw [List.take_of_length_le (by omega)]
    · rw [List.take_append_of_le_length (by omega), List.take_of_length_le (by omega)]
  · rw [h2, List.filter_append, ← heq]
    by_cases hl : out.length < n
    · rw [h5 (by omega)]
      simp only [List.filter_nil, List.append_nil]
      rw [List.drop_of_length_le (by omega)]
    · have : out.length = n := by omega
      rw [← this, List.drop_left]

/-! ### C15 -/

/-- C15 for every search function keeping its contract. -/
theorem C15_drainOrdered {tk : Nat → Int} (hm : MonoClock tk) (c : Centroid F) (hs : GoodSearch c.kfn) {n : Int}
    (hn : 0 ≤ n) (p : Nat) :
    ∃ out c' p', c.drainOrdered tk n p = .ok ((out, c'), p') ∧ Conserved (tk p') c.dps c'.dps out ∧
      c'.dps.Sublist c.dps ∧ AllLive (tk p) out ∧ (out.length : Int) ≤ n := by
  obtain ⟨r, p', h0, h⟩ := Go.wp_iff.1 (Centroid.wp_drainOrdered hm c hs hn p)
  obtain ⟨h1, ⟨removed, h2⟩, h3, h4, h5, h6⟩ := h.facts
  exact ⟨r.1, r.2, p', h0, h3, h2.sublist, h4, h5⟩

/-- C15 for the library searches: of the datapoints surviving the expiry scan, exactly the `n` furthest from the centroid
vector (fewer only if fewer have a comparable score) are removed and returned, furthest first. -/
theorem C15_drainOrdered_furthest [LawfulCmp F] {tk : Nat → Int} (hm : MonoClock tk) (c : Centroid F) (asc : Bool)
    (dist : List F → List F → Option F) (hs : c.kfn = fun t pl k => knnBrute t pl k asc dist) (n : Nat) (p : Nat) :
    ∃ out c' p' surv, c.drainOrdered tk n p = .ok ((out, c'), p') ∧ Survivors (tk p) (tk p') c.dps surv ∧
      (out ++ c'.dps).Perm surv ∧ c'.dps.Sublist surv ∧ BestOf (fun d => dist c.vec d.vec) asc out c'.dps ∧
      out.length = min n (candidates (fun d => dist c.vec d.vec) asc surv) := by
  have hok : SearchOK c.kfn := by rw [hs]; exact searchOK_knnBrute asc dist
  obtain ⟨r, p', h0, h⟩ := Go.wp_iff.1 (Centroid.wp_drainOrdered hm c hok (n := n) (by omega) p)
  rw [hs] at h
  obtain ⟨surv, h1, h2, h3, h4, h5⟩ := h.best
  exact ⟨r.1, r.2, p', surv, h0, h1, h2, h3, h4, h5⟩

/-! ### C16 -/

/-- C16. `Expire` keeps, in order, every datapoint still live when it returns and none already expired when called. -/
theorem C16_expire {tk : Nat → Int} (hm : MonoClock tk) (c : Centroid F) (p : Nat) :
    ∃ c' p', c.expire tk p = .ok (c', p') ∧ Survivors (tk p) (tk p') c.dps c'.dps := by
  obtain ⟨c', p', h0, h⟩ := Go.wp_iff.1 (Centroid.wp_expire hm c p)
  exact ⟨c', p', h0, h.survivors⟩

/-! ### C17 -/

/-- C17 for every search function keeping its contract: at most `k` stored datapoints, live at the start; draining
removes exactly those returned and expired ones, reading removes only expired ones and returns a sub-bag of what stays. -/
theorem C17_knnLookup {tk : Nat → Int} (hm : MonoClock tk) (c : Centroid F) (hs : GoodSearch c.knn) (v : List F) {k : Int}
    (hk : 0 ≤ k) (drain : Bool) (p : Nat) :
    ∃ out c' p', c.knnLookup tk v k drain p = .ok ((out, c'), p') ∧
      Conserved (tk p') c.dps c'.dps (if drain then out else []) ∧ c'.dps.Sublist c.dps ∧
      (drain = false → Survivors (tk p) (tk p') c.dps c'.dps ∧ ∃ rest, (out ++ rest).Perm c'.dps) ∧
      AllLive (tk p) out ∧ (out.length : Int) ≤ k := by
  obtain ⟨r, p', h0, h⟩ := Go.wp_iff.1 (Centroid.wp_knnLookup hm c hs v hk drain p)
  refine ⟨r.1, r.2, p', h0, ?_⟩
  cases drain with
  | true =>
    obtain ⟨h1, ⟨removed, h2⟩, h3, h4, h5, h6⟩ := Centroid.DrainEffect.facts h
    exact ⟨h3, h2.sublist, by simp, h4, h5⟩
  | false =>
    obtain ⟨h1, h2, h3, h4, h5, h6⟩ := Centroid.LookupEffect.facts h
    obtain ⟨removed, h7, _⟩ := h2.steps
    exact ⟨h2.conserved, h7.sublist, fun _ => ⟨h2.survivors, h6⟩, h3, h4⟩

/-- C17 for the library searches: the returned datapoints are the `k` best of those surviving the expiry scan, best
first; nothing left behind is strictly better. -/
theorem C17_knnLookup_best [LawfulCmp F] {tk : Nat → Int} (hm : MonoClock tk) (c : Centroid F) (asc : Bool)
    (dist : List F → List F → Option F) (hs : c.knn = fun t pl k => knnBrute t pl k asc dist) (v : List F) (k : Nat)
    (drain : Bool) (p : Nat) :
    ∃ out c' p' surv rest, c.knnLookup tk v k drain p = .ok ((out, c'), p') ∧ Survivors (tk p) (tk p') c.dps surv ∧
      (out ++ rest).Perm surv ∧ BestOf (fun d => dist v d.vec) asc out rest ∧
      out.length = min k (candidates (fun d => dist v d.vec) asc surv) ∧ c'.dps = if drain then rest else surv := by
  have hok : SearchOK c.knn := by rw [hs]; exact searchOK_knnBrute asc dist
  obtain ⟨r, p', h0, h⟩ := Go.wp_iff.1 (Centroid.wp_knnLookup hm c hok v (n := k) (by omega) drain p)
  rw [hs] at h
  cases drain with
  | true =>
    obtain ⟨surv, h1, h2, h3, h4, h5⟩ := Centroid.DrainEffect.best h
    exact ⟨r.1, r.2, p', surv, r.2.dps, h0, h1, h2, h4, h5, rfl⟩
  | false =>
    rw [if_neg (by simp)] at h
    obtain ⟨rest, h1, h2, h3⟩ := Centroid.LookupEffect.best h
    obtain ⟨_, hp, _⟩ := Centroid.LookupEffect.facts h
    exact ⟨r.1, r.2, p', r.2.dps, rest, h0, hp.survivors, h1, h2, h3, rfl⟩

/-! ### C18 -/

/-- C18. `DistributeDataPoints(n, receivers)` on any heap of centroids, with any receivers (repeated, of another
dimension, or the centroid itself): the datapoints of all centroids together stay the same, minus only expired ones;
receivers keep what they had, and together gain at most `n`. -/
theorem C18_distribute {tk : Nat → Int} (hm : MonoClock tk) (h : List (Centroid F)) (self : Nat) (c : Centroid F)
    (hc : h[self]? = some c) (hk : GoodSearch c.knn) (hf : GoodSearch c.kfn)
    (hd : ∀ d ∈ c.dps, d.vec.length = c.vec.length) {n : Int} (hn : 0 ≤ n) (receivers : List Nat)
    (hr : ∀ r ∈ receivers, r < h.length) (p : Nat) :
    ∃ h' p', Centroid.distribute tk h self n receivers p = .ok (h', p') ∧
      h'.length = h.length ∧
      Conserved (tk p') (h.flatMap (fun c => c.dps)) (h'.flatMap (fun c => c.dps)) [] ∧
      (∀ (k : Nat) (a b : Centroid F), k ≠ self → h[k]? = some a → h'[k]? = some b → a.dps <+: b.dps) ∧
      (∀ c', h'[self]? = some c' →
        ((h'.flatMap (fun c => c.dps)).length + c.dps.length : Int) ≤
          (h.flatMap (fun c => c.dps)).length + c'.dps.length + n) := by
  obtain ⟨h', p', h0, h1, h2, h3, h4⟩ := Go.wp_iff.1 (Centroid.wp_distribute hm h self c hc hk hf hd hn receivers hr p)
  exact ⟨h', p', h0, h2.1, h3, fun k a b hne ha hb => (h2.2 k a b ha hb).2 hne, h4⟩

/-! ### C58 (centroids) -/

/-- C58 (centroids). No draining or lookup call returns a datapoint that was already expired when it was called. -/
theorem C58_centroid_never_hands_out_expired {tk : Nat → Int} (hm : MonoClock tk) (c : Centroid F)
    (hk : GoodSearch c.knn) (hf : GoodSearch c.kfn) {n : Int} (hn : 0 ≤ n) (v : List F) (drain : Bool) (p : Nat) :
    (∃ out c' p', c.drainUnordered tk n p = .ok ((out, c'), p') ∧ AllLive (tk p) out) ∧
    (∃ out c' p', c.drainOrdered tk n p = .ok ((out, c'), p') ∧ AllLive (tk p) out) ∧
    (∃ out c' p', c.knnLookup tk v n drain p = .ok ((out, c'), p') ∧ AllLive (tk p) out) := by
  obtain ⟨o1, c1, p1, h1, _, _, e1, _⟩ := C14_drainUnordered hm c hn p
  obtain ⟨o2, c2, p2, h2, _, _, e2, _⟩ := C15_drainOrdered hm c hf hn p
  obtain ⟨o3, c3, p3, h3, _, _, _, e3, _⟩ := C17_knnLookup hm c hk v hn drain p
  exact ⟨⟨o1, c1, p1, h1, e1⟩, ⟨o2, c2, p2, h2, e2⟩, ⟨o3, c3, p3, h3, e3⟩⟩

/-! ### Concrete cases -/

namespace CentroidExample

/-- A datapoint with an integer vector that never expires. -/
def dp (x : Int) : DataPoint F64 := ⟨[.ofInt x], [1], 0, false⟩
/-- A datapoint expiring at the instant `t`. -/
def dpE (x t : Int) : DataPoint F64 := ⟨[.ofInt x], [2], t, true⟩

/-- A clock that runs. -/
def clk (p : Nat) : Int := p

theorem clk_mono : MonoClock clk := by intro p q h; unfold clk; omega

/-- Two centroids, one live and one expiring datapoint, a datapoint of another dimension, distribution of the centroid to
itself and to the other one, a drain. -/
def history : List (CentroidCall F64) :=
  [.create [.ofInt 0] 3 knnEuc kfnEuc, .create [.ofInt 10] 0 knnEuc kfnEuc, .add 0 (dp 1), .add 0 (dpE 2 5), .add 0 (dp 9),
   .add 1 (dp 10), .add 0 ⟨[.ofInt 1, .ofInt 2], [], 0, false⟩, .distribute 0 2 [0, 1, 1], .drainOrdered 1 1, .expire 0]

/-- The history meets the hypotheses of C12, C19 and C18. -/
example : ∀ o ∈ history, o.notTrim ∧ o.nonneg ∧ o.goodSearch := by
  intro o ho
  simp only [history, List.mem_cons, List.not_mem_nil, or_false] at ho
  have h := prefabs_goodSearch (F := F64)
  rcases ho with rfl | rfl | rfl | rfl | rfl | rfl | rfl | rfl | rfl | rfl <;>
    simp [CentroidCall.notTrim, CentroidCall.nonneg, CentroidCall.goodSearch, h]

/-- Result of the history: what is stored, what was accepted, what was handed out. The expiring datapoint is gone. -/
example : (runCentroidCalls clk history ⟨[], [], []⟩ 0).map
      (fun r => (r.1.cs.map (fun c => c.dps), r.1.accepted, r.1.out)) =
    .ok ([[dp 1], [dp 9]], [dp 10, dp 9, dpE 2 5, dp 1], [dp 10]) := by decide +kernel

/-- A centroid holding live and expired datapoints. -/
def c : Centroid F64 := ⟨[.ofInt 4], [dpE 1 (-1), dp 2, dp 9, dp 4, dp 5], knnEuc, kfnEuc⟩

example : GoodSearch c.knn ∧ GoodSearch c.kfn ∧ (∀ d ∈ c.dps, d.vec.length = c.vec.length) :=
  ⟨prefabs_goodSearch.2.2.1, prefabs_goodSearch.2.2.2, by simp [c, dp, dpE]⟩

example : (c.addDataPoint clk (dp 3) 0).map (fun r => r.1.1) = .ok true ∧
    (c.addDataPoint clk (dpE 3 (-2)) 0).map (fun r => r.1.1) = .ok false ∧
    (c.addDataPoint clk ⟨[], [], 0, false⟩ 0).map (fun r => r.1.1) = .ok false := by decide +kernel

example : (c.drainUnordered clk 2 0).map (fun r => (r.1.1, r.1.2.dps)) = .ok ([dp 2, dp 9], [dp 4, dp 5]) := by
  decide +kernel

example : (c.drainOrdered clk 2 0).map (fun r => (r.1.1, r.1.2.dps)) = .ok ([dp 9, dp 2], [dp 4, dp 5]) := by
  decide +kernel

example : (c.expire clk 0).map (fun r => r.1.dps) = .ok [dp 2, dp 9, dp 4, dp 5] := by decide +kernel

example : (c.memTrim clk 0).map (fun r => r.1.dps) = .ok [dp 2, dp 9, dp 4, dp 5] := by decide +kernel

example : (c.knnLookup clk [.ofInt 8] 2 true 0).map (fun r => (r.1.1, r.1.2.dps)) =
      .ok ([dp 9, dp 5], [dp 2, dp 4]) ∧
    (c.knnLookup clk [.ofInt 8] 2 false 0).map (fun r => (r.1.1, r.1.2.dps)) =
      .ok ([dp 9, dp 5], [dp 2, dp 9, dp 4, dp 5]) := by decide +kernel

/-- Distribution to another centroid, to one of another dimension and to itself. -/
example : (Centroid.distribute clk [c, ⟨[.ofInt 10], [dp 10], knnEuc, kfnEuc⟩, ⟨[], [], knnEuc, kfnEuc⟩] 0 3 [2, 1, 0, 1] 0).map
      (fun r => r.1.map (fun c => c.dps)) =
    .ok [[dp 4, dp 2, dp 5], [dp 10, dp 9], []] := by decide +kernel

end CentroidExample

end Trypo
