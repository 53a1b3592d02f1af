import Verif.Spec.Encoder
import Verif.Props.Slice

/-!
# Property C122: writing an answer does not bring the node down
-/

namespace Trypo
open GoFloat SGo SCentroid Spec

set_option linter.unusedSectionVars false

variable {F : Type} [GoFloat F]

/-- What the calls need of the centroids. -/
structure Fit (W : AnswerWorld F) : Prop where
  search : ∀ c ∈ W.cs, SearchOK c.knn ∧ SearchOK c.kfn
  dim : ∀ c ∈ W.cs, c.DimOK

/-- Calls on centroid `i` are the only ones that change it. -/
theorem on_other {W W' : AnswerWorld F} {self i : Nat} {f : Centroid F → Go (List (List (DataPoint F)) × Centroid F)} {p p' : Nat} (hi : self ≠ i)
    (h : W.on self f p = .ok (W', p')) : W'.cs[i]? = W.cs[i]? := by
  unfold AnswerWorld.on at h
  cases hc : W.cs[self]? with
  | none =>
    rw [hc] at h
    cases h
    rfl
  | some c =>
    rw [hc] at h
    simp only [Bind.bind, StateT.bind, Except.bind] at h
    cases e : f c p with
    | error _ => rw [e] at h; cases h
    | ok r =>
      rw [e] at h
      cases h
      exact List.getElem?_set_ne hi

/-- A call that spares centroid `i` leaves what it holds at the front. -/
theorem spares_prefix {tk : Nat → Int} (hm : MonoClock tk) {W W' : AnswerWorld F} (hW : Fit W) {i : Nat} {C : Centroid F} (hC : W.cs[i]? = some C) {p p' : Nat} :
    ∀ {o : CentroidCall F}, o.nonneg → o.spares i → o.runAnswer tk W p = .ok (W', p') → ∃ C', W'.cs[i]? = some C' ∧ C.dps <+: C'.dps
  | .create v cap knn kfn, _, _, h => by
    simp only [CentroidCall.runAnswer, Bind.bind, StateT.bind, Except.bind] at h
    have hi := (List.getElem?_eq_some_iff.1 hC).1
    cases e : Centroid.new v cap (some knn) (some kfn) p with
    | error _ => rw [e] at h; cases h
    | ok r =>
      rw [e] at h
      obtain ⟨o, q⟩ := r
      cases o with
      | none => cases h; exact ⟨C, hC, List.prefix_refl _⟩
      | some c => cases h; exact ⟨C, by rw [List.getElem?_append_left hi, hC], List.prefix_refl _⟩
  | .add self d, _, _, h => by
    by_cases hs : self = i
    · subst hs
      simp only [CentroidCall.runAnswer, AnswerWorld.on] at h
      rw [hC] at h
      have hi := (List.getElem?_eq_some_iff.1 hC).1
      have : Go.wp (C.addDataPoint tk d) (fun r _ => C.dps <+: r.2.dps) p := by
        rw [Centroid.wp_addDataPoint]
        split
        · exact List.prefix_refl _
        · split
          · exact List.prefix_refl _
          · exact List.prefix_append _ _
      obtain ⟨r, p1, h1, h2⟩ := Go.wp_iff.1 this
      simp only [Bind.bind, StateT.bind, Except.bind, h1] at h
      cases h
      exact ⟨r.2, List.getElem?_set_self hi, h2⟩
    · exact ⟨C, by rw [on_other hs h, hC], List.prefix_refl _⟩
  | .drainUnordered self n, _, hs, h => ⟨C, by rw [on_other hs h, hC], List.prefix_refl _⟩
  | .drainOrdered self n, _, hs, h => ⟨C, by rw [on_other hs h, hC], List.prefix_refl _⟩
  | .expire self, _, hs, h => ⟨C, by rw [on_other hs h, hC], List.prefix_refl _⟩
  | .memTrim self, _, hs, h => ⟨C, by rw [on_other hs h, hC], List.prefix_refl _⟩
  | .moveVector self, _, hs, h => ⟨C, by rw [on_other hs h, hC], List.prefix_refl _⟩
  | .knnLookup self _ _ _, _, hs, h => ⟨C, by rw [on_other hs h, hC], List.prefix_refl _⟩
  | .distribute self n receivers, hn, hs, h => by
    simp only [CentroidCall.runAnswer] at h
    split at h
    · rename_i hself
      have hget : W.cs[self]? = some W.cs[self] := List.getElem?_eq_getElem hself
      have hc := List.mem_of_getElem? hget
      obtain ⟨H, p1, h1, _, h2, _⟩ := Go.wp_iff.1 (Centroid.wp_distribute hm W.cs self _ hget (hW.search _ hc).1 (hW.search _ hc).2 (hW.dim _ hc) hn
        (receivers.filter (· < W.cs.length)) (fun r hr => by simpa using (List.mem_filter.1 hr).2) p)
      simp only [Bind.bind, StateT.bind, Except.bind, h1] at h
      cases h
      have hi := (List.getElem?_eq_some_iff.1 hC).1
      have hi' : i < H.length := by rw [h2.1]; exact hi
      exact ⟨H[i], List.getElem?_eq_getElem hi', (h2.2 i C H[i] hC (List.getElem?_eq_getElem hi')).2 (fun e => hs e.symm)⟩
    · cases h
      exact ⟨C, hC, List.prefix_refl _⟩

/-- Calls with good arguments do not panic, and leave the centroids fit. -/
theorem run_fit {tk : Nat → Int} (hm : MonoClock tk) {W : AnswerWorld F} (hW : Fit W) {o : CentroidCall F} (ho : o.nonneg ∧ o.goodSearch) (p : Nat) :
    ∃ W' p', o.runAnswer tk W p = .ok (W', p') ∧ Fit W' := by
  have h0 : WorldInv tk p (⟨W.cs, W.cs.flatMap (fun c => c.dps), []⟩ : CentroidWorld F) :=
    ⟨hW.search, hW.dim, Conserved.refl _ _⟩
  have h1 := wp_call hm h0 (fun _ => True) (fun _ _ => trivial) (fun _ _ _ => trivial) (fun _ _ _ _ _ => trivial)
    (fun c hd _ q => Go.wp_mono (Centroid.wp_moveVector hm c hd q) (fun _ _ _ => trivial)) o (.inr (fun _ => trivial)) ho.1 ho.2
  obtain ⟨w, p', h2, _, h3, _⟩ := Go.wp_iff.1 h1
  have h4 := answers_histories_call tk ⟨W.cs, W.cs.flatMap (fun c => c.dps), []⟩ W rfl o p
  rw [h2] at h4
  cases e : o.runAnswer tk W p with
  | error _ => rw [e] at h4; simp [Except.map] at h4
  | ok r =>
    obtain ⟨W', q⟩ := r
    rw [e] at h4
    simp only [Except.map, Except.ok.injEq, Prod.mk.injEq] at h4
    exact ⟨W', q, rfl, ⟨fun c hc => h3.search c (by rw [h4.1]; exact hc), fun c hc => h3.dim c (by rw [h4.1]; exact hc)⟩⟩

/-- The same of a list of calls; what spares a centroid leaves its datapoints at the front. -/
theorem runs_fit {tk : Nat → Int} (hm : MonoClock tk) : ∀ (os : List (CentroidCall F)) {W : AnswerWorld F}, Fit W → (∀ o ∈ os, o.nonneg ∧ o.goodSearch) →
    ∀ p, ∃ W' p', runAnswers tk os W p = .ok (W', p') ∧ Fit W' ∧
      ∀ i C, W.cs[i]? = some C → (∀ o ∈ os, o.spares i) → ∃ C', W'.cs[i]? = some C' ∧ C.dps <+: C'.dps
  | [], W, hW, _, p => ⟨W, p, rfl, hW, fun _ C hC _ => ⟨C, hC, List.prefix_refl _⟩⟩
  | o :: os, W, hW, h, p => by
    obtain ⟨W1, p1, h1, h2⟩ := run_fit hm hW (h o (by simp)) p
    obtain ⟨W2, p2, h3, h4, h5⟩ := runs_fit hm os h2 (fun o' ho' => h o' (by simp [ho'])) p1
    refine ⟨W2, p2, ?_, h4, fun i C hC hs => ?_⟩
    · simp only [runAnswers, Bind.bind, StateT.bind, Except.bind, h1]
      exact h3
    · obtain ⟨C1, e1, e2⟩ := spares_prefix hm hW hC (h o (by simp)).1 (hs o (by simp)) h1
      obtain ⟨C2, e3, e4⟩ := h5 i C1 e1 (fun o' ho' => hs o' (by simp [ho']))
      exact ⟨C2, e3, e2.trans e4⟩

/-- On slices: good calls run through. -/
theorem slices_fit {grow : Nat → Nat → Nat} {tk : Nat → Int} (hm : MonoClock tk) {K : List (Slice × List (DataPoint F))} (os : List (CentroidCall F)) {m : Mem F}
    {w : SliceWorld F} {W : AnswerWorld F} (hs : Same K m w W) (hW : Fit W) (h : ∀ o ∈ os, o.nonneg ∧ o.goodSearch) (p : Nat) :
    ∃ w' m' W' p', runSlices grow tk os w m p = .ok ((w', m'), p') ∧ Same K m' w' W' ∧ Fit W' ∧
      ∀ i C, W.cs[i]? = some C → (∀ o ∈ os, o.spares i) → ∃ C', W'.cs[i]? = some C' ∧ C.dps <+: C'.dps := by
  obtain ⟨W', p', h1, h2, h3⟩ := runs_fit hm os hW h p
  have h4 := refines_calls grow tk os hs p
  rw [h1] at h4
  obtain ⟨w', m', h5, h6⟩ := h4
  exact ⟨w', m', W', p', h5, h6, h2, h3⟩

/-- The variable holds the elements `l`, and perhaps more behind them. -/
def Holds (K : List (Slice × List (DataPoint F))) (W : AnswerWorld F) (l : List (DataPoint F)) : Target → Prop
  | .live self => ∃ C, W.cs[self]? = some C ∧ l <+: C.dps
  | .given s => (s, l) ∈ K

/-- The calls spare what the reply points to. -/
def Spares (os : List (CentroidCall F)) : Target → Prop
  | .live self => ∀ o ∈ os, o.spares self
  | .given _ => True

theorem Holds.run {K : List (Slice × List (DataPoint F))} {W W' : AnswerWorld F} {l : List (DataPoint F)} {t : Target} {os : List (CentroidCall F)} (h : Holds K W l t)
    (hs : Spares os t) (hW : ∀ i C, W.cs[i]? = some C → (∀ o ∈ os, o.spares i) → ∃ C', W'.cs[i]? = some C' ∧ C.dps <+: C'.dps) : Holds K W' l t := by
  cases t with
  | live self =>
    obtain ⟨C, h1, h2⟩ := h
    obtain ⟨C', h3, h4⟩ := hW self C h1 hs
    exact ⟨C', h3, h2.trans h4⟩
  | given s => exact h

theorem Holds.slice {K : List (Slice × List (DataPoint F))} {m : Mem F} {w : SliceWorld F} {W : AnswerWorld F} {l : List (DataPoint F)} {t : Target}
    (h : Holds K W l t) (hs : Same K m w W) : ∃ s l', t.get w = some s ∧ Rep m s l' ∧ l <+: l' := by
  cases t with
  | live self =>
    obtain ⟨C, h1, h2⟩ := h
    have hi : self < w.cs.length := by rw [hs.heap.len]; exact (List.getElem?_eq_some_iff.1 h1).1
    have hc := List.getElem?_eq_getElem hi
    refine ⟨w.cs[self].dps, C.dps, ?_, (hs.heap.rep self _ C hc h1).dps, h2⟩
    simp only [Target.get, hc, Option.map_some]
  | given s => exact ⟨s, l, rfl, (hs.keep _ (List.mem_append_left _ h)).1, List.prefix_refl _⟩

/-- While nothing is taken from the centroid, the encoder writes what was there when it began. -/
theorem encodeFrom_ok {grow : Nat → Nat → Nat} {tk : Nat → Int} (hm : MonoClock tk) {K : List (Slice × List (DataPoint F))} {t : Target} {l : List (DataPoint F)}
    {sched : Nat → List (CentroidCall F)} (hg : ∀ i, ∀ o ∈ sched i, o.nonneg ∧ o.goodSearch) (hsp : ∀ i, Spares (sched i) t) :
    ∀ (n i : Nat) {m : Mem F} {w : SliceWorld F} {W : AnswerWorld F} (p : Nat), i + n = l.length → Same K m w W → Fit W → Holds K W l t →
      ∃ m' p', encodeFrom grow tk t sched n i w m p = .ok ((l.drop i, m'), p')
  | 0, i, m, w, W, p, hl, _, _, _ => ⟨m, p, by
      rw [List.drop_of_length_le (by omega)]
      rfl⟩
  | n + 1, i, m, w, W, p, hl, hs, hW, ht => by
    obtain ⟨w1, m1, W1, p1, h1, h2, h3, h4⟩ := slices_fit (grow := grow) hm (sched i) hs hW (hg i) p
    have ht1 := ht.run (hsp i) h4
    obtain ⟨s, l', h5, h6, h7⟩ := ht1.slice h2
    have hi : i < l.length := by omega
    have hd : l'[i]? = some l[i] := by
      obtain ⟨x, rfl⟩ := h7
      rw [List.getElem?_append_left hi, List.getElem?_eq_getElem hi]
    obtain ⟨m2, p2, h8⟩ := encodeFrom_ok (grow := grow) hm hg hsp n (i + 1) p1 (by omega) h2 h3 ht1
    refine ⟨m2, p2, ?_⟩
    unfold encodeFrom
    simp only [Bind.bind, StateT.bind, Except.bind, h1, h5, det_read h6 hd p1, h8]
    rw [List.drop_eq_getElem_cons hi]
    rfl

theorem fit_empty : Fit (⟨[], []⟩ : AnswerWorld F) := ⟨by simp, by simp⟩

/-- What is true of both kinds of reply. -/
theorem replyDuring_ok {grow : Nat → Nat → Nat} {tk : Nat → Int} (hm : MonoClock tk) {os : List (CentroidCall F)} {self : Nat} {drain : Bool}
    {first : List (CentroidCall F)} {sched : Nat → List (CentroidCall F)} (ho : ∀ o ∈ os ++ first, o.nonneg ∧ o.goodSearch)
    (hg : ∀ i, ∀ o ∈ sched i, o.nonneg ∧ o.goodSearch) (hsf : drain = false → ∀ o ∈ first, o.spares self) (hss : drain = false → ∀ i, ∀ o ∈ sched i, o.spares self)
    (p : Nat) : ∃ r m p', replyDuring grow tk os self drain first sched [] p = .ok ((r, m), p') ∧
      ∀ x ∈ r, x.reply = x.begun ∧ x.held <+: x.begun ∧ (drain = true → x.begun = x.held) := by
  obtain ⟨w, m, W, p1, h1, h2, h3, _⟩ := slices_fit (grow := grow) hm os same_empty fit_empty (fun o h => ho o (List.mem_append_left _ h)) p
  unfold replyDuring
  simp only [Bind.bind, StateT.bind, Except.bind, h1]
  cases hc : w.cs[self]? with
  | none => exact ⟨none, m, p1, rfl, by simp⟩
  | some c =>
    obtain ⟨C, hC, hrep⟩ := h2.heap.partner hc
    cases drain with
    | false =>
      obtain ⟨w1, m1, W1, p2, k1, k2, k3, k4⟩ := slices_fit (grow := grow) hm first h2 h3 (fun o h => ho o (List.mem_append_right _ h)) p1
      obtain ⟨C1, e1, e2⟩ := k4 self C hC (hsf rfl)
      have hi : self < w1.cs.length := by rw [k2.heap.len]; exact (List.getElem?_eq_some_iff.1 e1).1
      have hc1 := List.getElem?_eq_getElem hi
      have hrep1 := k2.heap.rep self _ C1 hc1 e1
      obtain ⟨m2, p3, k5⟩ := encodeFrom_ok (grow := grow) hm hg (t := .live self) (hss rfl) C1.dps.length 0 p2 (by omega) k2 k3 ⟨C1, e1, List.prefix_refl _⟩
      refine ⟨some ⟨C.dps, C1.dps, C1.dps⟩, m2, p3, ?_, fun x hx => ?_⟩
      · simp only [StateT.bind, Bind.bind, Except.bind, det_load hrep.dps p1, Bool.false_eq_true, if_false, k1, Target.get, hc1, Option.map_some, det_load hrep1.dps p2,
          k5, List.drop_zero]
        rfl
      · cases hx
        exact ⟨rfl, e2, fun h => by cases h⟩
    | true =>
      have hsame : Same [(c.dps, C.dps)] m ⟨w.cs.eraseIdx self, w.answers⟩ ⟨W.cs.eraseIdx self, W.answers⟩ := same_erase h2 hc hrep
      have hfit : Fit (⟨W.cs.eraseIdx self, W.answers⟩ : AnswerWorld F) :=
        ⟨fun c hc => h3.search c (List.mem_of_mem_eraseIdx hc), fun c hc => h3.dim c (List.mem_of_mem_eraseIdx hc)⟩
      obtain ⟨w1, m1, W1, p2, k1, k2, k3, k4⟩ := slices_fit (grow := grow) hm first hsame hfit (fun o h => ho o (List.mem_append_right _ h)) p1
      have hrep1 : Rep m1 c.dps C.dps := (k2.keep _ (List.mem_append_left _ (List.mem_singleton.2 rfl))).1
      obtain ⟨m2, p3, k5⟩ := encodeFrom_ok (grow := grow) hm hg (t := .given c.dps) (l := C.dps) (fun _ => trivial) C.dps.length 0 p2 (by omega) k2 k3
        (List.mem_singleton.2 rfl)
      refine ⟨some ⟨C.dps, C.dps, C.dps⟩, m2, p3, ?_, fun x hx => ?_⟩
      · simp only [StateT.bind, Bind.bind, Except.bind, det_load hrep.dps p1, if_true, k1, Target.get, det_load hrep1 p2, k5, List.drop_zero]
        rfl
      · cases hx
        exact ⟨rfl, List.prefix_refl _, fun _ => rfl⟩

/-- C122, what the code guarantees, draining: the answer is written whatever other requests do meanwhile, and it is what the centroid
held. Missing: without draining (`C122_refuted`). -/
theorem C122_drained_partial (grow : Nat → Nat → Nat) {tk : Nat → Int} (hm : MonoClock tk) (os : List (CentroidCall F)) (self : Nat)
    (first : List (CentroidCall F)) (sched : Nat → List (CentroidCall F)) (ho : ∀ o ∈ os ++ first, o.nonneg ∧ o.goodSearch)
    (hg : ∀ i, ∀ o ∈ sched i, o.nonneg ∧ o.goodSearch) (p : Nat) :
    ∃ r m p', replyDuring grow tk os self true first sched [] p = .ok ((r, m), p') ∧ ∀ x ∈ r, x.reply = x.held := by
  obtain ⟨r, m, p', h1, h2⟩ := replyDuring_ok (grow := grow) hm (self := self) (drain := true) ho hg (by simp) (by simp) p
  exact ⟨r, m, p', h1, fun x hx => (h2 x hx).1.trans ((h2 x hx).2.2 rfl)⟩

/-- C122, what the code guarantees, not draining: if other requests take nothing out of the centroid meanwhile, the answer is written, and it is
what the centroid held when the encoder came to it: what it held when the lock was released, and what was added since. Missing: requests that do take
something out (`C122_refuted`). -/
theorem C122_spared_partial (grow : Nat → Nat → Nat) {tk : Nat → Int} (hm : MonoClock tk) (os : List (CentroidCall F)) (self : Nat)
    (first : List (CentroidCall F)) (sched : Nat → List (CentroidCall F)) (ho : ∀ o ∈ os ++ first, o.nonneg ∧ o.goodSearch)
    (hg : ∀ i, ∀ o ∈ sched i, o.nonneg ∧ o.goodSearch) (hsf : ∀ o ∈ first, o.spares self) (hss : ∀ i, ∀ o ∈ sched i, o.spares self) (p : Nat) :
    ∃ r m p', replyDuring grow tk os self false first sched [] p = .ok ((r, m), p') ∧ ∀ x ∈ r, x.reply = x.begun ∧ x.held <+: x.begun := by
  obtain ⟨r, m, p', h1, h2⟩ := replyDuring_ok (grow := grow) hm (self := self) (drain := false) ho hg (fun _ => hsf) (fun _ => hss) p
  exact ⟨r, m, p', h1, fun x hx => ⟨(h2 x hx).1, (h2 x hx).2.1⟩⟩

/-- C122 is false of the code: the centroid holds two datapoints; the encoder writes the first one, another request drains one, and the encoder
asks for the second. The calls of the other request are in order. -/
theorem C122_refuted : ∃ (os : List (CentroidCall F64)) (sched : Nat → List (CentroidCall F64)),
    (∀ o ∈ os, o.nonneg ∧ o.goodSearch) ∧ (∀ i, ∀ o ∈ sched i, o.nonneg ∧ o.goodSearch) ∧
    replyDuring goGrow (fun _ => 0) os 0 false [] sched [] 0 = .error .index := by
  let dp (x : Int) : DataPoint F64 := ⟨[F64.ofInt x], [], 0, false⟩
  refine ⟨[.create [F64.ofInt 0] 0 knnEuc kfnEuc, .add 0 (dp 1), .add 0 (dp 2)], fun i => if i = 1 then [.drainUnordered 0 1] else [], ?_, fun i o ho => ?_, ?_⟩
  · intro o ho
    simp only [List.mem_cons, List.not_mem_nil, or_false] at ho
    rcases ho with rfl | rfl | rfl
    · exact ⟨by show (0 : Int) ≤ 0; omega, prefabs_goodSearch.2.2.1, prefabs_goodSearch.2.2.2⟩
    · exact ⟨trivial, trivial⟩
    · exact ⟨trivial, trivial⟩
  · simp only at ho
    split at ho
    · rw [List.mem_singleton.1 ho]
      exact ⟨by show (0 : Int) ≤ 1; omega, trivial⟩
    · cases ho
  · have h : (match replyDuring goGrow (fun _ => 0) [.create [F64.ofInt 0] 0 knnEuc kfnEuc, .add 0 (dp 1), .add 0 (dp 2)] 0 false []
        (fun i => if i = 1 then [.drainUnordered 0 1] else []) [] 0 with | .error .index => true | _ => false) = true := by decide +kernel
    split at h
    · assumption
    · cases h

namespace EncoderExample
open CentroidExample

/-- A centroid with three datapoints, and another one; others make calls before the first, the second and the third element. -/
def during (drain : Bool) (first a b : List (CentroidCall F64)) : Option (List (DataPoint F64) × List (DataPoint F64) × List (DataPoint F64)) :=
  match replyDuring goGrow clk [.create [.ofInt 0] 2 knnEuc kfnEuc, .create [.ofInt 5] 2 knnEuc kfnEuc, .add 0 (dp 1), .add 0 (dp 2), .add 0 (dp 3), .add 1 (dp 6)]
      0 drain first (fun i => if i = 1 then a else if i = 2 then b else []) [] 0 with
  | .ok r => r.1.1.map (fun x => (x.held, x.begun, x.reply))
  | .error _ => none

/-- Added before the encoder begins: in the answer; added later: not. A distribution of another centroid adds as well. -/
example : during false [.add 0 (dp 4)] [.add 0 (dp 7), .drainUnordered 1 1] [.add 1 (dp 2), .distribute 1 1 [0]] =
    some ([dp 1, dp 2, dp 3], [dp 1, dp 2, dp 3, dp 4], [dp 1, dp 2, dp 3, dp 4]) := by decide +kernel

/-- Everything is drained meanwhile: nothing happens if the centroid is no longer the manager's, ... -/
example : during true [] [.drainUnordered 0 9] [.memTrim 0] = some ([dp 1, dp 2, dp 3], [dp 1, dp 2, dp 3], [dp 1, dp 2, dp 3]) := by decide +kernel

/-- ... the node crashes if it is; or the answer is a mixture, if something is added in time. -/
example : during false [] [] [.drainUnordered 0 1] = none := by decide +kernel
example : during false [] [.drainUnordered 0 1] [.add 0 (dp 9)] = some ([dp 1, dp 2, dp 3], [dp 1, dp 2, dp 3], [dp 1, dp 3, dp 9]) := by decide +kernel

end EncoderExample
end Trypo
