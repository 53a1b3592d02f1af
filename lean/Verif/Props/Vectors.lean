import Verif.Props.Manager

/-!
# Property C105: what the vectors are after `MemTrim`, after splits and when a centroid is emptied

`C13_memTrim_refuted` and the refutations of C23 show that the vectors are not the promised means then. These theorems
say, in exact arithmetic, what they are instead.
-/

set_option linter.unusedSectionVars false
set_option linter.unusedVariables false

namespace Trypo
open GoFloat Spec

variable {F : Type} [GoFloat F]

theorem ext_comp {v w : List ℝ} (hl : v.length = w.length) (h : ∀ j, comp j v = comp j w) : v = w := by
  refine List.ext_getElem hl (fun j h1 h2 => ?_)
  have := h j
  unfold comp at this
  simpa [List.getD_eq_getElem?_getD, h1, h2] using this

namespace Centroid

/-- A centroid emptied by removals keeps the vector of the datapoint removed last. -/
theorem RmSteps.emptied {a b : Centroid ℝ} {x : List (DataPoint ℝ)} (h : RmSteps a x b) (hd : a.DimOK) (hm : a.MeanInv)
    (hb : b.dps = []) : ∀ d, x.getLast? = some d → b.vec = d.vec := by
  induction h with
  | refl c => intro d hd; simp at hd
  | @step c c' i d ds hi hs ih =>
    intro e he
    have hdl := hd d (List.mem_of_getElem? hi)
    cases ds with
    | nil =>
      obtain rfl : d = e := by simpa using he
      have hl : c.dps.length = 1 := by
        have := (RmSteps.step hi hs).length
        rw [hb] at this
        simpa using this.symm
      cases hs
      have hv : (c.rmP i d).vec = c.vec := by unfold rmP; simp [hl]
      rw [hv]
      obtain ⟨y, hy⟩ := List.length_eq_one_iff.1 hl
      have hyd : y = d := by
        have := List.mem_of_getElem? hi
        rw [hy] at this
        simpa [eq_comm] using this
      refine ext_comp hdl.symm (fun j => ?_)
      have := hm j
      simpa [hy, hyd, compSum] using this
    | cons d' ds =>
      have he' : Evolves c (c.rmP i d) := .rm hi (.refl _)
      exact ih (he'.dim hd).2 (hm.rmP hi hdl) hb e (by simpa using he)

end Centroid

/-- C105, `Centroid.MemTrim`. In exact arithmetic the vector of a centroid, which was the mean of its datapoints, is after
`MemTrim` the vector of the datapoint that was stored last, whatever else is stored and even if that datapoint has
expired and is gone. -/
theorem C105_memTrim (tk : Nat → Int) (c : Centroid ℝ) (hd : ∀ d ∈ c.dps, d.vec.length = c.vec.length)
    (hm : IsMean c.vec (c.dps.map (fun d => d.vec))) (p : Nat) :
    ∃ c' p', c.memTrim tk p = .ok (c', p') ∧ (∀ d, c.dps.getLast? = some d → c'.vec = d.vec) ∧
      (c.dps = [] → c'.vec = c.vec) := by
  obtain ⟨c', p', h1, c0, h2, h3, h4⟩ := Go.wp_iff.1 (Centroid.wp_memTrim tk c p)
  subst h3
  have h0 : c0.dps = [] := by
    have := h2.length
    exact List.length_eq_zero_iff.1 (by omega)
  refine ⟨_, p', h1, fun d hl => h2.emptied hd hm h0 d hl, fun he => ?_⟩
  rw [he] at h2
  cases h2
  rfl

/-- C105, draining. In exact arithmetic a centroid that `DrainUnordered` empties keeps the vector of the datapoint that
was stored last. -/
theorem C105_emptied (tk : Nat → Int) (c : Centroid ℝ) (hd : ∀ d ∈ c.dps, d.vec.length = c.vec.length)
    (hm : IsMean c.vec (c.dps.map (fun d => d.vec))) {n : Int} (hn : 0 ≤ n) (p : Nat) :
    ∃ out c' p', c.drainUnordered tk n p = .ok ((out, c'), p') ∧
      (c'.dps = [] → ∀ d, c.dps.getLast? = some d → c'.vec = d.vec) := by
  obtain ⟨r, p', h1, pre, h2, h3, _⟩ := Go.wp_iff.1 (Centroid.wp_drainUnordered tk c hn p)
  refine ⟨r.1, r.2, p', h1, fun h0 d hl => h2.emptied hd hm h0 d ?_⟩
  rw [h0, List.append_nil] at h3
  rwa [← h3]

namespace Manager

theorem wp_memTrimLoop_mean {tk : Nat → Int} (hm : MonoClock tk) : ∀ (m i : Nat) (cm : Manager ℝ) (acc : List (Centroid ℝ))
    (p : Nat), cm.WF → i + m = cm.centroids.length →
    Go.wp (memTrimLoop tk (List.range' i m) cm acc) (fun r _ => ∃ X, r.1 = acc ++ X ∧ X.length ≤ m ∧
      (cm.MMean → X.length = m → (∀ x ∈ X, x.dps.length ≠ 1) ∨ cm.centroids.length ≤ 1 → r.2.MMean ∧
        r.2.centroids = cm.centroids.take i ++ X)) p
  | 0, i, cm, acc, p, hw, hi => by
    simp only [List.range'_zero]
    unfold memTrimLoop
    rw [Go.wp_pure]
    exact ⟨[], by simp, by simp, fun hmm _ _ => ⟨hmm, by rw [List.take_of_length_le (by omega)]; simp⟩⟩
  | m + 1, i, cm, acc, p, hw, hi => by
    rw [List.range'_succ]
    unfold memTrimLoop
    simp only [Go.wp_bind]
    have hlt : i < cm.centroids.length := by omega
    have hc : cm.centroids[i]? = some cm.centroids[i] := List.getElem?_eq_getElem hlt
    have hcm := List.getElem_mem hlt
    generalize cm.centroids[i] = c at hc hcm
    refine Go.wp_mono (wp_onCentroid (tk := tk) hw hc _ (fun c' o out p' => out = [] ∧ o = c') ?_) (fun r p1 hr => ?_)
    · simp only [Go.wp_bind, Go.wp_pure]
      exact Go.wp_mono (Centroid.callOK_memTrim hm c (hw.dim c hcm).2 p) (fun c' p' h => ⟨[], h, rfl, trivial⟩)
    · obtain ⟨out, c', e1, e2, e3, rfl, e4⟩ := hr
      rw [e4]
      have hlen : r.2.centroids.length = cm.centroids.length := by rw [e2, upd_centroids]; simp
      have hmm1 : cm.MMean → r.2.MMean := fun hmm => by rw [e2]; exact hmm.upd hw.lens hc e3.dim.1
      have htake : r.2.centroids.take (i + 1) = cm.centroids.take i ++ [c'] := by
        rw [e2, upd_centroids, List.take_add_one, List.take_set_of_le (Nat.le_refl _), List.getElem?_set_self hlt]
        rfl
      rw [Go.wp_ite]
      refine ⟨fun h1 => ?_, fun h1 => ?_⟩
      · -- a centroid left with one datapoint among several
        have hvec : r.2.vec.length = cm.vec.length := by
          rw [e2]; exact updateVec_length _ (hw.dim c hcm).1 (e3.dim.1.trans (hw.dim c hcm).1)
        have hvecd : (r.2.dropVec c'.vec).vec.length = cm.vec.length := by
          rw [dropVec_length _ (by rw [hvec]; exact e3.dim.1.trans (hw.dim c hcm).1), hvec]
        have hwd : (r.2.dropVec c'.vec).WF := by
          refine ⟨e1.wf.cap, e1.wf.good, e1.wf.search, fun x hx => ?_⟩
          rw [hvecd, ← hvec]; exact e1.wf.dim x hx
        rw [if_pos (by omega)]
        refine Go.wp_mono (wp_memTrimLoop_mean hm m (i + 1) _ _ p1 hwd (by show i + 1 + m = r.2.centroids.length; omega)) (fun s p2 hs => ?_)
        obtain ⟨X, x1, hlX, _⟩ := hs
        refine ⟨c' :: X, by rw [x1]; simp, by simp; omega, fun hmm hl hno => ?_⟩
        rcases hno with hno | hno
        · exact absurd h1.1 (hno c' (by simp))
        · omega
      · refine Go.wp_mono (wp_memTrimLoop_mean hm m (i + 1) _ _ p1 e1.wf (by omega)) (fun s p2 hs => ?_)
        obtain ⟨X, x1, x2, x3⟩ := hs
        by_cases hz : c'.lenDP ≠ 0
        · rw [if_pos hz] at x1
          refine ⟨c' :: X, by rw [x1]; simp, by simp; omega, fun hmm hl hno => ?_⟩
          obtain ⟨y1, y2⟩ := x3 (hmm1 hmm) (by simpa using hl) (hno.imp (fun h x hx => h x (by simp [hx])) (fun h => by omega))
          exact ⟨y1, by rw [y2, htake]; simp⟩
        · rw [if_neg hz] at x1
          exact ⟨X, x1, by omega, fun _ hl => absurd hl (by omega)⟩

end Manager

/-- C105, `CentroidManager.MemTrim`. In exact arithmetic `Vec`, if it was the mean of the centroid vectors before, is their
mean after `MemTrim` provided no centroid was dropped and none is left with exactly one datapoint (unless it is the only
one). -/
theorem C105_manager_memTrim {tk : Nat → Int} (hm : MonoClock tk) {cm : Manager ℝ} (hok : ManagerOK cm)
    (hmean : IsMean cm.vec (cm.centroids.map (fun c => c.vec))) (p : Nat) :
    ∃ cm' p', cm.memTrim tk p = .ok (cm', p') ∧
      (cm'.centroids.length = cm.centroids.length →
        (∀ c ∈ cm'.centroids, c.dps.length ≠ 1) ∨ cm.centroids.length ≤ 1 →
        IsMean cm'.vec (cm'.centroids.map (fun c => c.vec))) := by
  have : Go.wp (cm.memTrim tk) (fun cm' _ => cm'.centroids.length = cm.centroids.length →
      (∀ c ∈ cm'.centroids, c.dps.length ≠ 1) ∨ cm.centroids.length ≤ 1 → cm'.MMean) p := by
    unfold Manager.memTrim
    simp only [Go.wp_bind, Go.wp_pure, List.range_eq_range']
    refine Go.wp_mono (Manager.wp_memTrimLoop_mean hm _ 0 cm [] p hok.wf (by simp)) (fun r p' hr hl hno => ?_)
    obtain ⟨X, x1, x2, x3⟩ := hr
    simp only [List.nil_append] at x1
    rw [x1] at hl hno ⊢
    obtain ⟨y1, y2⟩ := x3 hmean hl hno
    simp only [List.take_zero, List.nil_append] at y2
    rw [← y2]
    exact y1
  obtain ⟨cm', p', h1, h2⟩ := Go.wp_iff.1 this
  exact ⟨cm', p', h1, h2⟩

/-- C105, `SplitCentroids` does not touch `Vec`, whatever the arithmetic: it stays what it was for the centroids before the
call. -/
theorem C105_split {tk : Nat → Int} (hm : MonoClock tk) {cm : Manager F} (hok : ManagerOK cm) (split : Centroid F → Bool)
    (p : Nat) : ∃ cm' p', cm.splitCentroids tk split p = .ok (cm', p') ∧ cm'.vec = cm.vec := by
  have : Go.wp (cm.splitCentroids tk split) (fun cm' _ => cm'.vec = cm.vec) p := by
    unfold Manager.splitCentroids
    simp only [Go.wp_bind, Go.wp_pure]
    refine Go.wp_mono (Manager.wp_splitLoop hm split _ cm [] p hok.wf List.nodup_range (by simp)) (fun r p' h => ?_)
    obtain ⟨X, h1, h2⟩ := h
    exact h2.vec
  obtain ⟨cm', p', h1, h2⟩ := Go.wp_iff.1 this
  exact ⟨cm', p', h1, h2⟩

/-- C105, `AddDataPoint`. In exact arithmetic, if `Vec` was the mean of the centroid vectors before, then after an accepted
datapoint it is the mean of the vectors the centroids had before the automatic split: `mid` are the centroids right after
the datapoint was stored; a split replaces one of them by its rest and appends the part split off. -/
theorem C105_add {tk : Nat → Int} (hm : MonoClock tk) {cm : Manager ℝ} (hok : ManagerOK cm)
    (hmean : IsMean cm.vec (cm.centroids.map (fun c => c.vec))) (d : DataPoint ℝ) (p : Nat) :
    ∃ b cm' p' mid, cm.addDataPoint tk d p = .ok ((b, cm'), p') ∧ IsMean cm'.vec (mid.map (fun c => c.vec)) ∧
      (cm'.centroids = mid ∨ ∃ (j : Nat) (c c' nc : Centroid ℝ), mid[j]? = some c ∧ cm.threshold ≤ c.dps.length ∧
        cm'.centroids = mid.set j c' ++ [nc] ∧ Conserved (tk p') c.dps (c'.dps ++ nc.dps) []) := by
  obtain ⟨r, p', h1, h2, h3, h4, _⟩ := Go.wp_iff.1 (Manager.wp_addDataPoint hm hok.wf d p)
  cases hb : r.1 with
  | false => exact ⟨r.1, r.2, p', cm.centroids, h1, by rw [h3 hb]; exact hmean, .inl (by rw [h3 hb])⟩
  | true =>
    have hs := h4 hb
    obtain ⟨b, cm'⟩ := r
    simp only at hs hb
    refine ⟨b, cm', p', ?_⟩
    cases hs with
    | @first _ c' h0 hd hs' hdim hp =>
      exact ⟨[c'], h1, by intro j; simp [compSum], .inl rfl⟩
    | @plain _ j c hc hl ht' hp =>
      exact ⟨_, h1, Manager.MMean.upd (cm := cm) hmean hok.wf.lens hc (Centroid.addRaw_vec_length hl), .inl rfl⟩
    | @split p1 _ j c c' nc cm1 hc hl ht1 ht2 hp hsp =>
      have hj : j < cm.centroids.length := (List.getElem?_eq_some_iff.1 hc).1
      have hmm := Manager.MMean.upd (cm := cm) hmean hok.wf.lens hc (Centroid.addRaw_vec_length hl)
      refine ⟨(cm.upd j c.vec (c.addRaw d)).centroids, h1, ?_, .inr ⟨j, c.addRaw d, c', nc, ?_, ?_, ?_, (hsp.conserved hm).2⟩⟩
      · show IsMean cm1.vec _
        rw [hsp.same.2.1]; exact hmm
      · rw [Manager.upd_centroids, List.getElem?_set_self hj]
      · show cm.threshold ≤ ((c.dps ++ [d]).length : Int)
        simpa using ht1
      · show cm1.centroids ++ [nc] = _
        rw [hsp.same.2.2]

namespace VectorsExample

/-- A datapoint over the reals. -/
def rp (x : ℝ) (e : Bool) : DataPoint ℝ := ⟨[x], [], 0, e⟩
/-- A centroid with the datapoints 1, 3 and 8, the last of which has expired; its vector is the mean 4. -/
def ctr : Centroid ℝ := ⟨[4], [rp 1 false, rp 3 false, rp 8 true], fun _ _ _ => .ok [], fun _ _ _ => .ok []⟩

end VectorsExample
open VectorsExample ManagerExample

/-- After `MemTrim` of the datapoints 1, 3 and 8 the vector is 8, although 8 has expired. -/
example : ∃ c' p', ctr.memTrim (fun _ => 1) 0 = .ok (c', p') ∧ c'.vec = [8] := by
  obtain ⟨c', p', h1, h2, _⟩ := C105_memTrim (fun _ => 1) ctr (by simp [ctr, rp])
    (by intro j; rcases j with _ | j <;> simp [ctr, rp, compSum, comp]; norm_num) 0
  exact ⟨c', p', h1, h2 (rp 8 true) rfl⟩

/-- The same with doubles: a centroid with the datapoints 1, 3 and 8 has the vector 8 after `MemTrim`. -/
example : ∃ w p', run 0 [.add (dp 1), .add (dp 3), .add (dp 8), .memTrim] 0 = .ok (w, p') ∧
    vecs w = ([.ofInt 8], [[.ofInt 8]]) :=
  exists_of_run (by decide +kernel)

/-- A centroid emptied of 1, 3 and 8 keeps the vector 8. -/
example : ∃ w p', run 0 [.add (dp 1), .add (dp 3), .add (dp 8), .drainUnordered 3 id] 0 = .ok (w, p') ∧
    vecs w = ([.ofInt 8], [[.ofInt 8]]) :=
  exists_of_run (by decide +kernel)

/-- Two centroids with two datapoints each: `MemTrim` spoils their vectors, but `Vec` is the mean of the spoilt ones. -/
example : (∃ w p', run 4 [.add (dp 0), .add (dp 1), .add (dp 10), .add (dp 11)] 0 = .ok (w, p') ∧
      vecs w = ([q 11 2], [[q 21 2], [q 1 2]])) ∧
    ∃ w p', run 4 [.add (dp 0), .add (dp 1), .add (dp 10), .add (dp 11), .memTrim] 0 = .ok (w, p') ∧
      vecs w = ([.ofInt 6], [[.ofInt 11], [.ofInt 1]]) :=
  ⟨exists_of_run (by decide +kernel), exists_of_run (by decide +kernel)⟩

/-- A split in `AddDataPoint`: `Vec` is 4, the mean of 0, 1 and 11 before the split; the centroids are then 6 and 0. -/
example : ∃ w p', run 3 [.add (dp 0), .add (dp 1), .add (dp 11)] 0 = .ok (w, p') ∧
    vecs w = ([.ofInt 4], [[.ofInt 6], [.ofInt 0]]) :=
  exists_of_run (by decide +kernel)

end Trypo
