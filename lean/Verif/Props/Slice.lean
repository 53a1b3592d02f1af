import Verif.Proofs.SliceCap
import Verif.Props.Centroid

/-!
# Properties C73 and C74: backing arrays, answers handed out, capacity
-/

namespace Trypo
open GoFloat SGo SCentroid Spec

set_option linter.unusedSectionVars false

variable {F : Type} [GoFloat F]

/-! ### C73 -/

/-- C73. Whatever `append` chooses as capacity: a history of calls on centroids of slices panics exactly as the history on lists
does, and otherwise the slices hold, element by element, what the lists hold - in the centroids and in every answer handed out
on the way. -/
theorem C73_slices_are_lists (grow : Nat → Nat → Nat) (tk : Nat → Int) (os : List (CentroidCall F)) (p : Nat) :
    match runAnswers tk os ⟨[], []⟩ p with
    | .error e => runSlices grow tk os ⟨[], []⟩ [] p = .error e
    | .ok (W, p') => ∃ w m, runSlices grow tk os ⟨[], []⟩ [] p = .ok ((w, m), p') ∧ w.read m = W := by
  have h := refines_calls grow tk os same_empty p
  split
  · rename_i e he
    rw [he] at h
    exact h
  · rename_i W p' he
    rw [he] at h
    obtain ⟨w, m, h1, h2⟩ := h
    exact ⟨w, m, h1, h2.read⟩

/-- Every run on slices comes from a run on lists. -/
theorem same_of_run {grow : Nat → Nat → Nat} {tk : Nat → Int} {os : List (CentroidCall F)} {m m' : Mem F} {w w' : SliceWorld F}
    {W : AnswerWorld F} {p p' : Nat} {K : List (Slice × List (DataPoint F))} (h : Same K m w W) (hr : runSlices grow tk os w m p = .ok ((w', m'), p')) :
    ∃ W', runAnswers tk os W p = .ok (W', p') ∧ Same K m' w' W' := by
  have h1 := refines_calls grow tk os h p
  cases e : runAnswers tk os W p with
  | error e' =>
    rw [e] at h1
    rw [h1] at hr
    cases hr
  | ok r =>
    obtain ⟨W', q⟩ := r
    rw [e] at h1
    obtain ⟨a, m2, h2, h3⟩ := h1
    rw [h2] at hr
    cases hr
    exact ⟨W', rfl, h3⟩

theorem answers_grow_on {W W' : AnswerWorld F} {self : Nat} {f : Centroid F → Go (List (List (DataPoint F)) × Centroid F)} {p p' : Nat}
    (h : W.on self f p = .ok (W', p')) : W.answers <+: W'.answers := by
  unfold AnswerWorld.on at h
  cases hc : W.cs[self]? with
  | none =>
    rw [hc] at h
    cases h
    exact List.prefix_refl _
  | some c =>
    rw [hc] at h
    simp only [Bind.bind, StateT.bind, Except.bind] at h
    cases e : f c p with
    | error _ => rw [e] at h; cases h
    | ok r =>
      rw [e] at h
      cases h
      exact List.prefix_append _ _

theorem answers_grow_call {tk : Nat → Int} {W W' : AnswerWorld F} {p p' : Nat} : ∀ {o : CentroidCall F}, o.runAnswer tk W p = .ok (W', p') →
    W.answers <+: W'.answers
  | .create v cap knn kfn, h => by
    simp only [CentroidCall.runAnswer, Bind.bind, StateT.bind, Except.bind] at h
    cases e : Centroid.new v cap (some knn) (some kfn) p with
    | error _ => rw [e] at h; cases h
    | ok r =>
      rw [e] at h
      obtain ⟨o, q⟩ := r
      cases o <;> (cases h; exact List.prefix_refl _)
  | .distribute self n receivers, h => by
    simp only [CentroidCall.runAnswer] at h
    split at h
    · simp only [Bind.bind, StateT.bind, Except.bind] at h
      cases e : Centroid.distribute tk W.cs self n (receivers.filter (· < W.cs.length)) p with
      | error _ => rw [e] at h; cases h
      | ok r =>
        rw [e] at h
        cases h
        exact List.prefix_refl _
    · cases h
      exact List.prefix_refl _
  | .add .., h => answers_grow_on h
  | .drainUnordered .., h => answers_grow_on h
  | .drainOrdered .., h => answers_grow_on h
  | .expire .., h => answers_grow_on h
  | .memTrim .., h => answers_grow_on h
  | .moveVector .., h => answers_grow_on h
  | .knnLookup .., h => answers_grow_on h

theorem answers_grow {tk : Nat → Int} : ∀ {os : List (CentroidCall F)} {W W' : AnswerWorld F} {p p' : Nat}, runAnswers tk os W p = .ok (W', p') →
    W.answers <+: W'.answers
  | [], _, _, _, _, h => by cases h; exact List.prefix_refl _
  | o :: os, W, W', p, p', h => by
    simp only [runAnswers, Bind.bind, StateT.bind, Except.bind] at h
    cases e : o.runAnswer tk W p with
    | error _ => rw [e] at h; cases h
    | ok r =>
      rw [e] at h
      exact (answers_grow_call e).trans (answers_grow h)

/-- C73, answers. An answer handed out (by a drain or a lookup) is never changed by later calls on any centroid: read at any
later time it is what it was. -/
theorem C73_answers_stay (grow : Nat → Nat → Nat) (tk : Nat → Int) (os os' : List (CentroidCall F)) {w w' : SliceWorld F} {m m' : Mem F}
    {p p' p'' : Nat} (h : runSlices grow tk os ⟨[], []⟩ [] p = .ok ((w, m), p')) (h' : runSlices grow tk os' w m p' = .ok ((w', m'), p'')) :
    w.answers.map (view m) <+: w'.answers.map (view m') := by
  obtain ⟨W, _, h1⟩ := same_of_run same_empty h
  obtain ⟨W', h2, h3⟩ := same_of_run h1 h'
  have e := congrArg AnswerWorld.answers h1.read
  have e' := congrArg AnswerWorld.answers h3.read
  simp only [SliceWorld.read] at e e'
  rw [e, e']
  exact answers_grow h2

/-- C73, arrays. No two centroids share an array, and no answer shares one with a centroid: writing into an answer changes no
centroid. -/
theorem C73_no_sharing (grow : Nat → Nat → Nat) (tk : Nat → Int) (os : List (CentroidCall F)) {w : SliceWorld F} {m : Mem F}
    {p p' : Nat} (h : runSlices grow tk os ⟨[], []⟩ [] p = .ok ((w, m), p')) :
    (w.cs.map (fun c => c.dps.arr)).Nodup ∧ ∀ c ∈ w.cs, ∀ s ∈ w.answers, c.dps.arr ≠ s.arr := by
  obtain ⟨W, _, h1⟩ := same_of_run same_empty h
  refine ⟨?_, fun c hc s hs => ?_⟩
  · rw [List.nodup_iff_getElem?_ne_getElem?]
    intro i j hij hj
    rw [List.length_map] at hj
    rw [List.getElem?_map, List.getElem?_map, List.getElem?_eq_getElem hj, List.getElem?_eq_getElem (by omega : i < w.cs.length)]
    simp only [Option.map_some, ne_eq, Option.some.injEq]
    exact h1.heap.sep i j _ _ (List.getElem?_eq_getElem _) (List.getElem?_eq_getElem hj) (by omega)
  · obtain ⟨i, hi⟩ := List.mem_iff_getElem?.1 hs
    have hl : i < W.answers.length := by rw [← h1.len]; exact (List.getElem?_eq_some_iff.1 hi).1
    exact (h1.keep (s, W.answers[i]) (List.mem_append_right _ (List.mem_iff_getElem?.2 ⟨i, by
      rw [List.getElem?_zip_eq_some]; exact ⟨hi, List.getElem?_eq_getElem hl⟩⟩))).2 c hc

/-- Both run on the same centroids: one call. -/
theorem answers_histories_call (tk : Nat → Int) (w : CentroidWorld F) (W : AnswerWorld F) (h : w.cs = W.cs) (o : CentroidCall F) (p : Nat) :
    (o.run tk w p).map (fun r => (r.1.cs, r.2)) = (o.runAnswer tk W p).map (fun r => (r.1.cs, r.2)) := by
  have on_eq : ∀ (self : Nat) (f : Centroid F → Go (List (DataPoint F) × Centroid F)) (g : Centroid F → Go (List (List (DataPoint F)) × Centroid F)),
      (∀ c p, (f c p).map (fun r => (r.1.2, r.2)) = (g c p).map (fun r => (r.1.2, r.2))) →
      (w.on self f p).map (fun r => (r.1.cs, r.2)) = (W.on self g p).map (fun r => (r.1.cs, r.2)) := by
    intro self f g hfg
    unfold CentroidWorld.on AnswerWorld.on
    rw [h]
    cases W.cs[self]? with
    | none => simp [pure, StateT.pure, Except.pure, Except.map, h]
    | some c =>
      simp only [Bind.bind, StateT.bind, Except.bind, pure, StateT.pure, Except.pure]
      have := hfg c p
      cases e1 : f c p <;> cases e2 : g c p <;> rw [e1, e2] at this <;> simp_all [Except.map]
  have same : ∀ {α : Type} (x : Go α) (f : α → List (DataPoint F) × Centroid F) (g : α → List (List (DataPoint F)) × Centroid F) (p : Nat),
      (∀ a, (f a).2 = (g a).2) →
      (((do let r ← x; pure (f r)) : Go _) p).map (fun r => (r.1.2, r.2)) = (((do let r ← x; pure (g r)) : Go _) p).map (fun r => (r.1.2, r.2)) := by
    intro α x f g p hfg
    simp only [Bind.bind, StateT.bind, Except.bind, pure, StateT.pure, Except.pure]
    cases x p <;> simp [Except.map, hfg]
  have same' : ∀ (x : Go (List (DataPoint F) × Centroid F)) (g : List (DataPoint F) × Centroid F → List (List (DataPoint F)) × Centroid F) (p : Nat),
      (∀ a, a.2 = (g a).2) →
      (x p).map (fun r => (r.1.2, r.2)) = (((do let r ← x; pure (g r)) : Go _) p).map (fun r => (r.1.2, r.2)) := by
    intro x g p hg
    simp only [Bind.bind, StateT.bind, Except.bind, pure, StateT.pure, Except.pure]
    cases x p <;> simp [Except.map, hg]
  cases o with
  | create v cap knn kfn =>
    simp only [CentroidCall.run, CentroidCall.runAnswer, Bind.bind, StateT.bind, Except.bind]
    cases e : Centroid.new v cap (some knn) (some kfn) p with
    | error _ => rfl
    | ok r =>
      obtain ⟨o, q⟩ := r
      cases o <;> simp [pure, StateT.pure, Except.pure, Except.map, h]
  | add self d =>
    simp only [CentroidCall.run, CentroidCall.runAnswer, AnswerWorld.on]
    rw [h]
    cases W.cs[self]? with
    | none => simp [pure, StateT.pure, Except.pure, Except.map, h]
    | some c =>
      simp only [Bind.bind, StateT.bind, Except.bind, pure, StateT.pure, Except.pure]
      cases c.addDataPoint tk d p <;> simp [Except.map]
  | drainUnordered self n => exact on_eq self _ _ (fun c p => same' _ _ p (fun _ => rfl))
  | drainOrdered self n => exact on_eq self _ _ (fun c p => same' _ _ p (fun _ => rfl))
  | expire self => exact on_eq self _ _ (fun c p => same _ _ _ p (fun _ => rfl))
  | memTrim self => exact on_eq self _ _ (fun c p => same _ _ _ p (fun _ => rfl))
  | moveVector self => exact on_eq self _ _ (fun c p => same _ _ _ p (fun _ => rfl))
  | knnLookup self v k drain => exact on_eq self _ _ (fun c p => same _ _ _ p (fun _ => rfl))
  | distribute self n receivers =>
    simp only [CentroidCall.run, CentroidCall.runAnswer, h]
    split
    · simp only [Bind.bind, StateT.bind, Except.bind, pure, StateT.pure, Except.pure]
      cases Centroid.distribute tk W.cs self n (receivers.filter (· < W.cs.length)) p <;> simp [Except.map]
    · simp [pure, StateT.pure, Except.pure, Except.map, h]

/-- C73, the other theorems. The centroids of a run on slices hold exactly what the histories of C12, C19 and C58 say they hold,
so whatever those say of lists is true of the slices. -/
theorem C73_centroids (grow : Nat → Nat → Nat) (tk : Nat → Int) (os : List (CentroidCall F)) {w : CentroidWorld F} {p p' : Nat}
    (h : runCentroidCalls tk os ⟨[], [], []⟩ p = .ok (w, p')) :
    ∃ v m, runSlices grow tk os ⟨[], []⟩ [] p = .ok ((v, m), p') ∧ v.cs.map (contents m) = w.cs := by
  have key : ∀ (os : List (CentroidCall F)) (w : CentroidWorld F) (W : AnswerWorld F) (p : Nat), w.cs = W.cs →
      (runCentroidCalls tk os w p).map (fun r => (r.1.cs, r.2)) = (runAnswers tk os W p).map (fun r => (r.1.cs, r.2)) := by
    intro os
    induction os with
    | nil => intro w W p h; simp [runCentroidCalls, runAnswers, pure, StateT.pure, Except.pure, Except.map, h]
    | cons o os ih =>
      intro w W p h
      have h1 := answers_histories_call tk w W h o p
      simp only [runCentroidCalls, runAnswers, Bind.bind, StateT.bind, Except.bind]
      cases e1 : o.run tk w p with
      | error a =>
        cases e2 : o.runAnswer tk W p with
        | error b => rw [e1, e2] at h1; simp_all [Except.map]
        | ok b => rw [e1, e2] at h1; simp [Except.map] at h1
      | ok a =>
        cases e2 : o.runAnswer tk W p with
        | error b => rw [e1, e2] at h1; simp [Except.map] at h1
        | ok b =>
          rw [e1, e2] at h1
          simp only [Except.map, Except.ok.injEq, Prod.mk.injEq] at h1
          simp only [h1.2]
          exact ih a.1 b.1 b.2 h1.1
  have h1 := key os ⟨[], [], []⟩ ⟨[], []⟩ p rfl
  rw [h] at h1
  have h2 := C73_slices_are_lists grow tk os p
  cases e : runAnswers tk os ⟨[], []⟩ p with
  | error _ => rw [e] at h1; simp [Except.map] at h1
  | ok r =>
    rw [e] at h1 h2
    simp only [Except.map, Except.ok.injEq, Prod.mk.injEq] at h1
    obtain ⟨v, m, h3, h4⟩ := h2
    refine ⟨v, m, by rw [h1.2]; exact h3, ?_⟩
    rw [h1.1, ← h4]
    rfl

/-! ### C74 -/

/-- C74, first half, is false of the code: three datapoints that never expire, then `MemTrim`: the capacity is four (with the growth
rule of the Go runtime). -/
theorem C74_refuted : ∃ (os : List (CentroidCall F64)) (w : SliceWorld F64) (m : Mem F64) (p : Nat) (c : SCentroid F64),
    (∀ o ∈ os, o.nonneg ∧ o.goodSearch) ∧
    runSlices goGrow (fun _ => 0) (os ++ [.memTrim 0]) ⟨[], []⟩ [] 0 = .ok ((w, m), p) ∧ w.cs[0]? = some c ∧
    c.dps.len = 3 ∧ c.dps.cap = 4 := by
  let d : DataPoint F64 := ⟨[F64.ofInt 1], [], 0, false⟩
  let os : List (CentroidCall F64) := [.create [F64.ofInt 0] 0 knnEuc kfnEuc, .add 0 d, .add 0 d, .add 0 d]
  have h : (runSlices goGrow (fun _ => 0) (os ++ [.memTrim 0]) ⟨[], []⟩ [] 0).map (fun r => r.1.1.cs.map (fun c => (c.dps.len, c.dps.cap))) =
    .ok [(3, 4)] := by decide +kernel
  cases e : runSlices goGrow (fun _ => 0) (os ++ [.memTrim 0]) ⟨[], []⟩ [] 0 with
  | error _ => rw [e] at h; cases h
  | ok r =>
    obtain ⟨⟨w, m⟩, p⟩ := r
    rw [e] at h
    simp only [Except.map, Except.ok.injEq] at h
    obtain ⟨c, hc, h2⟩ : ∃ c, w.cs = [c] ∧ (c.dps.len, c.dps.cap) = (3, 4) := by
      obtain ⟨cs, as⟩ := w
      match cs with
      | [] => simp at h
      | [c] => exact ⟨c, rfl, by simpa using h⟩
      | _ :: _ :: _ => simp at h
    refine ⟨os, w, m, p, c, ?_, e, by rw [hc]; rfl, congrArg Prod.fst h2, congrArg Prod.snd h2⟩
    intro o ho
    simp only [os, List.mem_cons, List.not_mem_nil, or_false] at ho
    rcases ho with rfl | rfl | rfl | rfl
    · exact ⟨by show (0 : Int) ≤ 0; omega, prefabs_goodSearch.2.2.1, prefabs_goodSearch.2.2.2⟩
    all_goals exact ⟨trivial, trivial⟩

/-- C74, what the code guarantees: if `append` takes at most `B` times what it needs, the capacity after `MemTrim` is at most `B` times the
number of datapoints - in particular 0 for none - and the cells behind them are zero: nothing removed before is kept alive.
Missing: capacity and length are not equal (`C74_refuted`). -/
theorem C74_memTrim_partial {B : Nat} {grow : Nat → Nat → Nat} (hB : 1 ≤ B) (hg : ∀ c, grow c (c + 1) ≤ B * (c + 1)) (tk : Nat → Int)
    (os : List (CentroidCall F)) (self : Nat) {w w' : SliceWorld F} {m m' : Mem F} {p p' p'' : Nat} {c : SCentroid F}
    (h : runSlices grow tk os ⟨[], []⟩ [] p = .ok ((w, m), p')) (h' : runSlices grow tk [.memTrim self] w m p' = .ok ((w', m'), p''))
    (hc : w'.cs[self]? = some c) : c.dps.cap ≤ B * c.dps.len ∧ spare m' c.dps = List.replicate (c.dps.cap - c.dps.len) SGo.zero := by
  obtain ⟨W, _, h1⟩ := same_of_run same_empty h
  simp only [runSlices, CentroidCall.runSlice, SliceWorld.on] at h'
  cases hs : w.cs[self]? with
  | none =>
    rw [hs] at h'
    cases h'
    rw [hs] at hc
    cases hc
  | some c0 =>
    rw [hs] at h'
    obtain ⟨C, _, hrep⟩ := h1.heap.partner hs
    have h2 := tidy_memTrim hB hg tk hrep p'
    simp only [Bind.bind, StateT.bind, Except.bind, pure, StateT.pure, Except.pure] at h'
    cases e : C.memTrim tk p' with
    | error _ =>
      rw [e] at h2
      simp only at h2
      rw [h2] at h'
      cases h'
    | ok r =>
      rw [e] at h2
      obtain ⟨c', m2, h3, h4⟩ := h2
      rw [h3] at h'
      cases h'
      have hi := (List.getElem?_eq_some_iff.1 hs).1
      rw [List.getElem?_set_self hi] at hc
      cases hc
      refine ⟨h4.cap, ?_⟩
      obtain ⟨a, a1, a2, a3⟩ := h4.rest
      unfold spare
      rw [a1, h4.off, Option.getD_some, List.drop_zero, List.take_of_length_le (Nat.le_of_eq a2), a3]

/-- The growth rule of the Go runtime at most doubles. -/
theorem C74_goGrow (c : Nat) : goGrow c (c + 1) ≤ 2 * (c + 1) := by
  unfold goGrow
  split
  · omega
  · split <;> omega

/-! ### C79 -/

/-- C79 is false of the code: `NearestCentroids(vec, 1, false)` answers with a pointer to a centroid that holds 1, 2 and 3; while the answer is being written,
another request drains one datapoint. The client gets 1, 3, 3: one datapoint twice, and not the one that was stored all the time. -/
theorem C79_refuted : ∃ (os : List (CentroidCall F64)) (others : List (List (CentroidCall F64))) (a b d : DataPoint F64) (m : Mem F64) (p : Nat),
    (∀ o ∈ os ++ others.flatten, o.nonneg ∧ o.goodSearch) ∧ a ≠ b ∧ b ≠ d ∧ a ≠ d ∧
    answerDuring goGrow (fun _ => 0) os 0 false others [] 0 = .ok ((some ([a, b, d], [a, d, d], [[b, d]]), m), p) := by
  let dp (x : Int) : DataPoint F64 := ⟨[F64.ofInt x], [], 0, false⟩
  let os : List (CentroidCall F64) := [.create [F64.ofInt 0] 0 knnEuc kfnEuc, .add 0 (dp 1), .add 0 (dp 2), .add 0 (dp 3)]
  have h : (answerDuring goGrow (fun _ => 0) os 0 false [[], [.drainUnordered 0 1], []] [] 0).toOption.map (fun r => r.1.1) =
    some (some ([dp 1, dp 2, dp 3], [dp 1, dp 3, dp 3], [[dp 2, dp 3]])) := by decide +kernel
  cases e : answerDuring goGrow (fun _ => 0) os 0 false [[], [.drainUnordered 0 1], []] [] 0 with
  | error _ => rw [e] at h; cases h
  | ok r =>
    obtain ⟨⟨x, m⟩, p⟩ := r
    rw [e] at h
    simp only [Except.toOption, Option.map_some, Option.some.injEq] at h
    subst h
    refine ⟨os, _, dp 1, dp 2, dp 3, m, p, ?_, by decide +kernel, by decide +kernel, by decide +kernel, e⟩
    intro o ho
    simp only [os, List.cons_append, List.nil_append, List.flatten_cons, List.flatten_nil, List.append_nil, List.mem_cons, List.not_mem_nil, or_false] at ho
    rcases ho with rfl | rfl | rfl | rfl | rfl
    · exact ⟨by show (0 : Int) ≤ 0; omega, prefabs_goodSearch.2.2.1, prefabs_goodSearch.2.2.2⟩
    · exact ⟨trivial, trivial⟩
    · exact ⟨trivial, trivial⟩
    · exact ⟨trivial, trivial⟩
    · exact ⟨by show (0 : Int) ≤ 1; omega, trivial⟩

theorem encodeDuring_keeps {grow : Nat → Nat → Nat} {tk : Nat → Int} {K : List (Slice × List (DataPoint F))} {s : Slice} {l : List (DataPoint F)}
    (hs : (s, l) ∈ K) : ∀ (others : List (List (CentroidCall F))) (i : Nat) {m m' : Mem F} {w w' : SliceWorld F} {W : AnswerWorld F} {p p' : Nat}
      {ds : List (DataPoint F)}, Same K m w W → encodeDuring grow tk s others i w m p = .ok (((ds, w'), m'), p') → ds = (l.drop i).take others.length
  | [], i, m, m', w, w', W, p, p', ds, _, h => by
    cases h
    simp
  | os :: others, i, m, m', w, w', W, p, p', ds, hw, h => by
    simp only [encodeDuring, Bind.bind, StateT.bind, Except.bind] at h
    cases e1 : runSlices grow tk os w m p with
    | error _ => rw [e1] at h; cases h
    | ok r =>
      obtain ⟨⟨w1, m1⟩, p1⟩ := r
      obtain ⟨W1, _, hw1⟩ := same_of_run hw e1
      rw [e1] at h
      simp only at h
      have hv := (hw1.keep _ (List.mem_append_left _ hs)).1.view
      simp only at hv
      have hread : SGo.read s i m1 p1 = (match l[i]? with | some d => .ok ((d, m1), p1) | none => .error .index) := by
        unfold SGo.read
        rw [hv]
        cases l[i]? <;> rfl
      rw [hread] at h
      cases hi : l[i]? with
      | none => rw [hi] at h; cases h
      | some d =>
        rw [hi] at h
        simp only at h
        cases e2 : encodeDuring grow tk s others (i + 1) w1 m1 p1 with
        | error _ => rw [e2] at h; cases h
        | ok r =>
          obtain ⟨⟨⟨ds', w2⟩, m2⟩, p2⟩ := r
          rw [e2] at h
          cases h
          have ih := encodeDuring_keeps hs others (i + 1) hw1 e2
          obtain ⟨hl, hd⟩ := List.getElem?_eq_some_iff.1 hi
          rw [List.drop_eq_getElem_cons hl, List.length_cons, List.take_succ_cons, hd, ih]

/-- What the parts of `answerDuring` are. -/
theorem answerDuring_parts {grow : Nat → Nat → Nat} {tk : Nat → Int} {os : List (CentroidCall F)} {self : Nat} {drain : Bool}
    {others : List (List (CentroidCall F))} {held reply : List (DataPoint F)} {after : List (List (DataPoint F))} {m : Mem F} {p p' : Nat}
    (h : answerDuring grow tk os self drain others [] p = .ok ((some (held, reply, after), m), p')) :
    ∃ w m1 p1 c w2 m2 p2, runSlices grow tk os ⟨[], []⟩ [] p = .ok ((w, m1), p1) ∧ w.cs[self]? = some c ∧ held = view m1 c.dps ∧
      encodeDuring grow tk c.dps others 0 (if drain then ⟨w.cs.eraseIdx self, w.answers⟩ else w) m1 p1 = .ok (((reply, w2), m2), p2) := by
  simp only [answerDuring, Bind.bind, StateT.bind, Except.bind] at h
  cases e1 : runSlices grow tk os ⟨[], []⟩ [] p with
  | error _ => rw [e1] at h; cases h
  | ok r =>
    obtain ⟨⟨w, m1⟩, p1⟩ := r
    rw [e1] at h
    simp only at h
    cases hc : w.cs[self]? with
    | none => rw [hc] at h; cases h
    | some c =>
      rw [hc] at h
      simp only [StateT.bind, SGo.load, Bind.bind, Except.bind] at h
      cases e2 : encodeDuring grow tk c.dps others 0 (if drain then ⟨w.cs.eraseIdx self, w.answers⟩ else w) m1 p1 with
      | error _ => rw [e2] at h; cases h
      | ok r =>
        obtain ⟨⟨⟨ds', w2⟩, m2⟩, p2⟩ := r
        rw [e2] at h
        simp only at h
        split at h
        · cases h
        · cases h
          exact ⟨w, m1, p1, c, w2, m2, p2, rfl, hc, rfl, e2⟩

/-- A centroid that is removed from the manager keeps its datapoints; nobody else writes into its array. -/
theorem same_erase {m : Mem F} {w : SliceWorld F} {W : AnswerWorld F} {self : Nat} {c : SCentroid F} {C : Centroid F} (hw : Same [] m w W)
    (h2 : w.cs[self]? = some c) (hrep : RepC m c C) : Same [(c.dps, C.dps)] m ⟨w.cs.eraseIdx self, w.answers⟩ ⟨W.cs.eraseIdx self, W.answers⟩ := by
    refine ⟨⟨?_, fun i d D hd hD => ?_, fun i j d e hd he hij => ?_⟩, hw.len, fun q hq => ?_⟩
    · simp only [List.length_eraseIdx, hw.heap.len]
    · simp only [List.getElem?_eraseIdx] at hd hD
      split at hd
      · rename_i hlt; rw [if_pos hlt] at hD; exact hw.heap.rep _ _ _ hd hD
      · rename_i hlt; rw [if_neg hlt] at hD; exact hw.heap.rep _ _ _ hd hD
    · simp only [List.getElem?_eraseIdx] at hd he
      split at hd <;> split at he <;> exact hw.heap.sep _ _ _ _ hd he (by omega)
    · rcases List.mem_append.1 hq with hq | hq
      · simp only [List.mem_singleton] at hq
        subst hq
        refine ⟨hrep.dps, fun d hd => ?_⟩
        obtain ⟨j, hj, hd⟩ := List.mem_eraseIdx_iff_getElem?.1 hd
        exact hw.heap.sep j self d c hd h2 hj
      · exact ⟨(hw.keep q (by simpa using hq)).1, fun d hd => (hw.keep q (by simpa using hq)).2 d (List.mem_of_mem_eraseIdx hd)⟩

/-- C79, what the code guarantees, draining: a centroid that was removed from its manager arrives as it was when the lock was released, whatever runs on the
other centroids meanwhile. Missing: without draining (`C79_refuted`). -/
theorem C79_drained_partial (grow : Nat → Nat → Nat) (tk : Nat → Int) (os : List (CentroidCall F)) (self : Nat) (others : List (List (CentroidCall F)))
    {held reply : List (DataPoint F)} {after : List (List (DataPoint F))} {m : Mem F} {p p' : Nat}
    (h : answerDuring grow tk os self true others [] p = .ok ((some (held, reply, after), m), p')) (hl : others.length = held.length) : reply = held := by
  obtain ⟨w, m1, p1, c, w2, m2, p2, h1, h2, h3, h4⟩ := answerDuring_parts h
  obtain ⟨W, _, hw⟩ := same_of_run same_empty h1
  obtain ⟨C, hC, hrep⟩ := hw.heap.partner h2
  have hsame := same_erase hw h2 hrep
  have := encodeDuring_keeps (List.mem_singleton.2 rfl) others 0 hsame h4
  rw [this, hl, h3, hrep.dps.view, List.drop_zero, List.take_length]

/-- C79, undisturbed: if no other request runs meanwhile, the answer is what the centroid held. -/
theorem C79_undisturbed_partial (grow : Nat → Nat → Nat) (tk : Nat → Int) (os : List (CentroidCall F)) (self : Nat) (drain : Bool) (n : Nat)
    {held reply : List (DataPoint F)} {after : List (List (DataPoint F))} {m : Mem F} {p p' : Nat}
    (h : answerDuring grow tk os self drain (List.replicate n []) [] p = .ok ((some (held, reply, after), m), p')) (hl : n = held.length) : reply = held := by
  obtain ⟨w, m1, p1, c, w2, m2, p2, h1, h2, h3, h4⟩ := answerDuring_parts h
  have key : ∀ (n i : Nat) (w w2 : SliceWorld F) (m1 m2 : Mem F) (p1 p2 : Nat) (ds : List (DataPoint F)),
      encodeDuring grow tk c.dps (List.replicate n []) i w m1 p1 = .ok (((ds, w2), m2), p2) → ds = ((view m1 c.dps).drop i).take n := by
    intro n
    induction n with
    | zero => intro i w w2 m1 m2 p1 p2 ds h; cases h; simp
    | succ n ih =>
      intro i w w2 m1 m2 p1 p2 ds h
      simp only [List.replicate_succ, encodeDuring, runSlices, Bind.bind, StateT.bind, Except.bind, pure, StateT.pure, Except.pure, SGo.read] at h
      cases hi : (view m1 c.dps)[i]? with
      | none => rw [hi] at h; cases h
      | some d =>
        rw [hi] at h
        simp only at h
        cases e2 : encodeDuring grow tk c.dps (List.replicate n []) (i + 1) w m1 p1 with
        | error _ => rw [e2] at h; cases h
        | ok r =>
          obtain ⟨⟨⟨ds', w2⟩, m2⟩, p2⟩ := r
          rw [e2] at h
          cases h
          obtain ⟨hl, hd⟩ := List.getElem?_eq_some_iff.1 hi
          rw [List.drop_eq_getElem_cons hl, List.take_succ_cons, hd, ih _ _ _ _ _ _ _ _ e2]
  rw [key n 0 _ _ _ _ _ _ _ h4, h3, hl, h3, List.drop_zero, List.take_length]

namespace SliceExample
open CentroidExample

/-- What a history leaves: the windows and their contents, and the same for the answers. -/
def run (os : List (CentroidCall F64)) : Except Panic (List (List (DataPoint F64)) × List (List (DataPoint F64)) × List Slice) :=
  (runSlices goGrow clk os ⟨[], []⟩ [] 0).map (fun r => (r.1.1.cs.map (fun c => view r.1.2 c.dps), r.1.1.answers.map (view r.1.2),
    r.1.1.cs.map (fun c => c.dps)))

/-- A history with two centroids, expiry, drains, lookups and a distribution: its answers are still there at the end, though the
removals moved the datapoints about within the arrays. -/
def hist : List (CentroidCall F64) :=
  [.create [.ofInt 0] 3 knnEuc kfnEuc, .create [.ofInt 10] 0 knnEuc kfnEuc, .add 0 (dp 1), .add 0 (dpE 2 5), .add 0 (dp 9),
   .knnLookup 0 [.ofInt 9] 2 false, .add 1 (dp 10), .drainUnordered 0 1, .add 0 (dp 3), .add 0 (dp 4), .distribute 0 1 [1], .drainOrdered 1 1,
   .memTrim 0]

example : run hist = .ok ([[dp 3, dp 4], [dp 9]], [[dp 9, dpE 2 5], [dp 1], [dp 10]],
    [⟨13, 0, 2, 2⟩, ⟨7, 0, 1, 2⟩]) := by decide +kernel

/-- `Expire` alone keeps the capacity; `MemTrim` gives it back. -/
example : (run [.create [.ofInt 0] 8 knnEuc kfnEuc, .add 0 (dpE 1 2), .add 0 (dpE 1 2), .add 0 (dp 1), .expire 0]).map (fun r => r.2.2) =
      .ok [⟨0, 0, 1, 8⟩] ∧
    (run [.create [.ofInt 0] 8 knnEuc kfnEuc, .add 0 (dpE 1 2), .add 0 (dpE 1 2), .add 0 (dp 1), .expire 0, .memTrim 0]).map
      (fun r => r.2.2.map (fun s => (s.len, s.cap))) = .ok [(1, 1)] := by decide +kernel

/-- C79: the same interruption, with and without draining the centroid. -/
def during (drain : Bool) : Option (List (DataPoint F64) × List (DataPoint F64) × List (List (DataPoint F64))) :=
  match answerDuring goGrow clk [.create [.ofInt 0] 2 knnEuc kfnEuc, .create [.ofInt 5] 2 knnEuc kfnEuc, .add 0 (dp 1), .add 0 (dp 2), .add 0 (dp 3), .add 1 (dp 6)]
        0 drain [[.drainUnordered 0 1], [.add 0 (dp 7)], [.memTrim 0]] [] 0 with
  | .ok r => r.1.1
  | .error _ => none

example : during true = some ([dp 1, dp 2, dp 3], [dp 1, dp 2, dp 3], [[dp 7]]) := by decide +kernel
example : during false = some ([dp 1, dp 2, dp 3], [dp 2, dp 3, dp 7], [[dp 2, dp 3, dp 7], [dp 6]]) := by decide +kernel

/-- The growth of the runtime: 0, 1, 2, 4, 8, …, 256, 512, 832. -/
example : [goGrow 0 1, goGrow 1 2, goGrow 2 3, goGrow 4 5, goGrow 128 129, goGrow 256 257, goGrow 512 513] = [1, 2, 4, 8, 256, 512, 832] := by decide

end SliceExample
end Trypo
