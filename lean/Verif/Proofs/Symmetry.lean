import Verif.Spec.Symmetry
import Verif.Model.Manager

/-!
# Changing the coordinates commutes with every operation
-/

set_option linter.unusedSectionVars false
set_option linter.unusedVariables false
set_option linter.unusedSimpArgs false

namespace Trypo
open GoFloat Spec

variable {F : Type} [GoFloat F]

namespace Equi
variable {φ ψ : List F → List F}

theorem nil (e : Equi φ ψ) : φ [] = [] := List.length_eq_zero_iff.1 (by rw [e.len]; rfl)

theorem vecAdd (e : Equi φ ψ) (a b : List F) : vecAdd (φ a) (φ b) = (φ (vecAdd a b).1, (vecAdd a b).2) := by
  unfold Trypo.vecAdd
  rw [e.len, e.len]
  split
  · simp [e.nil]
  · rename_i h; rw [e.add a b (by simpa using h)]

theorem vecSub (e : Equi φ ψ) (a b : List F) : vecSub (φ a) (φ b) = (φ (vecSub a b).1, (vecSub a b).2) := by
  unfold Trypo.vecSub
  rw [e.len, e.len]
  split
  · simp [e.nil]
  · rename_i h; rw [e.sub a b (by simpa using h)]

theorem vecMul (e : Equi φ ψ) (a : List F) (s : F) : vecMulScalar (φ a) s = φ (vecMulScalar a s) := e.mul a s
theorem vecDiv (e : Equi φ ψ) (a : List F) (s : F) : vecDivScalar (φ a) s = φ (vecDivScalar a s) := e.div a s

theorem vecMeanLoop (e : Equi φ ψ) : ∀ (vs : List (List F)) (res : List F) (n : F),
    vecMeanLoop (φ res) n (vs.map φ) = (φ (vecMeanLoop res n vs).1, (vecMeanLoop res n vs).2)
  | [], res, n => by simp [Trypo.vecMeanLoop, e.div]
  | v :: vs, res, n => by
    simp only [List.map_cons, Trypo.vecMeanLoop, e.len]
    split
    · rfl
    · rename_i h
      rw [e.add _ _ (by simpa using (Eq.symm (by simpa using h)))]
      exact vecMeanLoop e vs _ _

theorem vecMean (e : Equi φ ψ) (vs : List (List F)) : vecMean (vs.map φ) = (φ (vecMean vs).1, (vecMean vs).2) := by
  cases vs with
  | nil => simp [Trypo.vecMean, e.nil]
  | cons v vs => exact e.vecMeanLoop vs v _

theorem search (e : Equi φ ψ) (s : Search F) (v : List F) (pool : List (List F)) (k : Int) :
    moveSearch ψ s (φ v) (pool.map φ) k = s v pool k := by
  unfold moveSearch
  rw [e.left, List.map_map]
  congr 1
  have h : ψ ∘ φ = id := funext e.left
  rw [h, List.map_id]

omit [GoFloat F] in
theorem idx_map {α β : Type} (f : α → β) (l : List α) (i : Nat) : Go.idx (l.map f) i = f <$> Go.idx l i := by
  unfold Go.idx
  rw [List.getElem?_map]
  cases l[i]? <;> rfl

omit [GoFloat F] in
theorem expired_moved (tk : Nat → Int) (d : DataPoint F) : (moveDP φ d).expired tk = d.expired tk := rfl

omit [GoFloat F] in
theorem eraseIdx_mapped {α β : Type} (f : α → β) : ∀ (l : List α) (i : Nat), (l.map f).eraseIdx i = (l.eraseIdx i).map f
  | [], _ => rfl
  | _ :: _, 0 => rfl
  | a :: l, i + 1 => by simp [eraseIdx_mapped f l i]

/-! ### Centroids -/

local notation "mc" => moveCentroid φ ψ
local notation "md" => moveDP φ

theorem addRaw (e : Equi φ ψ) (c : Centroid F) (d : DataPoint F) : (mc c).addRaw (md d) = mc (c.addRaw d) := by
  simp [Centroid.addRaw, moveCentroid, moveDP, e.vecMul, e.vecAdd, e.vecDiv]

theorem addDataPoint (e : Equi φ ψ) (tk : Nat → Int) (c : Centroid F) (d : DataPoint F) :
    (mc c).addDataPoint tk (md d) = (fun r => (r.1, mc r.2)) <$> c.addDataPoint tk d := by
  unfold Centroid.addDataPoint
  have h1 : (md d).vec.length = d.vec.length := e.len _
  have h2 : (mc c).vec.length = c.vec.length := e.len _
  rw [h1, h2]
  split
  · simp
  · simp only [map_bind, expired_moved, e.addRaw]
    refine bind_congr fun b => ?_
    split <;> simp

theorem rm (e : Equi φ ψ) (c : Centroid F) (i : Nat) : (mc c).rm i = mc <$> c.rm i := by
  unfold Centroid.rm
  have h : (mc c).dps[i]? = c.dps[i]?.map md := by simp [moveCentroid]
  rw [h]
  cases c.dps[i]? with
  | none => rfl
  | some d =>
    simp only [Option.map_some, map_pure]
    congr 1
    simp only [moveCentroid, moveDP, List.length_map, e.vecMul, e.vecSub, e.vecDiv, eraseIdx_mapped, Centroid.mk.injEq, and_true]
    split <;> rfl

theorem skipExpired (e : Equi φ ψ) (tk : Nat → Int) (i : Nat) : ∀ (fuel : Nat) (c : Centroid F),
    Centroid.skipExpired tk i fuel (mc c) = mc <$> Centroid.skipExpired tk i fuel c
  | 0, c => by simp [Centroid.skipExpired]
  | fuel + 1, c => by
    unfold Centroid.skipExpired
    have h : (mc c).dps[i]? = c.dps[i]?.map md := by simp [moveCentroid]
    rw [h]
    cases c.dps[i]? with
    | none => simp
    | some d =>
      simp only [Option.map_some, map_bind, expired_moved]
      refine bind_congr fun b => ?_
      split
      · simp only [e.rm, map_bind, bind_map_left, skipExpired e tk i fuel]
      · simp

theorem genNext (e : Equi φ ψ) (tk : Nat → Int) (c : Centroid F) (i : Nat) :
    Centroid.genNext tk (mc c) i = (fun r => (r.1.map φ, mc r.2.1, r.2.2)) <$> Centroid.genNext tk c i := by
  unfold Centroid.genNext
  have h0 : (mc c).dps.length = c.dps.length := by simp [moveCentroid]
  rw [h0, e.skipExpired]
  simp only [map_bind, bind_map_left]
  refine bind_congr fun c' => ?_
  have h : (mc c').dps[i]? = c'.dps[i]?.map md := by simp [moveCentroid]
  rw [h]
  cases c'.dps[i]? with
  | none => simp
  | some d => simp [moveDP]

theorem genAll (e : Equi φ ψ) (tk : Nat → Int) : ∀ (fuel : Nat) (c : Centroid F) (i : Nat),
    Centroid.genAll tk fuel (mc c) i = (fun r => (r.1.map φ, mc r.2)) <$> Centroid.genAll tk fuel c i
  | 0, c, i => by simp [Centroid.genAll]
  | fuel + 1, c, i => by
    unfold Centroid.genAll
    rw [e.genNext]
    simp only [map_bind, bind_map_left]
    refine bind_congr fun r => ?_
    cases r.1 with
    | none => simp
    | some v => simp [genAll e tk fuel]

theorem drainUnorderedLoop (e : Equi φ ψ) (tk : Nat → Int) (n : Nat) : ∀ (fuel : Nat) (c : Centroid F) (res : List (DataPoint F)),
    Centroid.drainUnorderedLoop tk n fuel (mc c) (res.map md) = (fun r => (r.1.map md, mc r.2)) <$> Centroid.drainUnorderedLoop tk n fuel c res
  | 0, c, res => by simp [Centroid.drainUnorderedLoop]
  | fuel + 1, c, res => by
    unfold Centroid.drainUnorderedLoop
    have h : (mc c).dps = c.dps.map md := rfl
    rw [h]
    cases hd : c.dps with
    | nil => simp
    | cons d ds =>
      simp only [List.map_cons, List.length_map]
      split
      · simp only [map_bind, expired_moved]
        refine bind_congr fun b => ?_
        simp only [e.rm, bind_map_left]
        refine bind_congr fun c' => ?_
        have : (if b = true then res.map md else res.map md ++ [md d]) = (if b = true then res else res ++ [d]).map md := by
          split <;> simp
        rw [this]
        exact drainUnorderedLoop e tk n fuel c' _
      · simp

theorem drainUnordered (e : Equi φ ψ) (tk : Nat → Int) (c : Centroid F) (n : Int) :
    (mc c).drainUnordered tk n = (fun r => (r.1.map md, mc r.2)) <$> c.drainUnordered tk n := by
  unfold Centroid.drainUnordered
  have h0 : (mc c).dps.length = c.dps.length := by simp [moveCentroid]
  simp only [map_bind, h0]
  refine bind_congr fun _ => ?_
  exact e.drainUnorderedLoop tk _ _ c []

theorem rmAll (e : Equi φ ψ) : ∀ (is : List Nat) (c : Centroid F), Centroid.rmAll is (mc c) = mc <$> Centroid.rmAll is c
  | [], c => by simp [Centroid.rmAll]
  | i :: is, c => by
    unfold Centroid.rmAll
    simp only [e.rm, map_bind, bind_map_left, rmAll e is]

theorem getAll (e : Equi φ ψ) : ∀ (is : List Nat) (c : Centroid F), Centroid.getAll is (mc c) = (List.map md) <$> Centroid.getAll is c
  | [], c => by simp [Centroid.getAll]
  | i :: is, c => by
    unfold Centroid.getAll
    have h : (mc c).dps = c.dps.map md := rfl
    simp only [h, idx_map, map_bind, bind_map_left, getAll e is, map_pure, List.map_cons]

theorem drainOrdered (e : Equi φ ψ) (tk : Nat → Int) (c : Centroid F) (n : Int) :
    (mc c).drainOrdered tk n = (fun r => (r.1.map md, mc r.2)) <$> c.drainOrdered tk n := by
  unfold Centroid.drainOrdered
  have h0 : (mc c).dps.length = c.dps.length := by simp [moveCentroid]
  simp only [map_bind, h0, e.genAll, bind_map_left]
  refine bind_congr fun _ => bind_congr fun g => ?_
  have h1 : (mc c).kfn (mc c).vec (g.1.map φ) n = c.kfn c.vec g.1 n := e.search _ _ _ _
  rw [h1]
  refine bind_congr fun is => ?_
  simp only [e.getAll, e.rmAll, bind_map_left, map_bind, map_pure]

theorem expireLoop (e : Equi φ ψ) (tk : Nat → Int) : ∀ (fuel i : Nat) (c : Centroid F),
    Centroid.expireLoop tk fuel i (mc c) = mc <$> Centroid.expireLoop tk fuel i c
  | 0, i, c => by simp [Centroid.expireLoop]
  | fuel + 1, i, c => by
    unfold Centroid.expireLoop
    have h : (mc c).dps[i]? = c.dps[i]?.map md := by simp [moveCentroid]
    rw [h]
    cases c.dps[i]? with
    | none => simp
    | some d =>
      simp only [Option.map_some, map_bind, expired_moved]
      refine bind_congr fun b => ?_
      split
      · simp only [e.rm, map_bind, bind_map_left, expireLoop e tk fuel i]
      · exact expireLoop e tk fuel (i + 1) c

theorem expire (e : Equi φ ψ) (tk : Nat → Int) (c : Centroid F) : (mc c).expire tk = mc <$> c.expire tk := by
  unfold Centroid.expire
  have h0 : (mc c).dps.length = c.dps.length := by simp [moveCentroid]
  rw [h0]
  exact e.expireLoop tk _ 0 c

theorem memTrimLoop (e : Equi φ ψ) (tk : Nat → Int) : ∀ (fuel : Nat) (c : Centroid F) (acc : List (DataPoint F)),
    Centroid.memTrimLoop tk fuel (mc c) (acc.map md) = (fun r => (r.1.map md, mc r.2)) <$> Centroid.memTrimLoop tk fuel c acc
  | 0, c, acc => by simp [Centroid.memTrimLoop]
  | fuel + 1, c, acc => by
    unfold Centroid.memTrimLoop
    have h0 : (mc c).dps.length = c.dps.length := by simp [moveCentroid]
    rw [h0]
    split
    · simp only [e.drainUnordered, map_bind, bind_map_left]
      refine bind_congr fun r => ?_
      rw [← List.map_append]
      exact memTrimLoop e tk fuel r.2 _
    · simp

theorem memTrim (e : Equi φ ψ) (tk : Nat → Int) (c : Centroid F) : (mc c).memTrim tk = mc <$> c.memTrim tk := by
  unfold Centroid.memTrim
  have h0 : (mc c).dps.length = c.dps.length := by simp [moveCentroid]
  have h := e.memTrimLoop tk c.dps.length c []
  rw [List.map_nil] at h
  rw [h0, h]
  simp only [map_bind, bind_map_left]
  refine bind_congr fun r => ?_
  rfl

theorem meanLoop (e : Equi φ ψ) (tk : Nat → Int) : ∀ (fuel : Nat) (res : List F) (n : F) (c : Centroid F) (i : Nat),
    Centroid.meanLoop tk fuel (φ res) n (mc c) i = (fun r => ((φ r.1.1, r.1.2), mc r.2)) <$> Centroid.meanLoop tk fuel res n c i
  | 0, res, n, c, i => by simp [Centroid.meanLoop, e.div]
  | fuel + 1, res, n, c, i => by
    unfold Centroid.meanLoop
    simp only [e.genNext, map_bind, bind_map_left]
    refine bind_congr fun r => ?_
    cases r.1 with
    | none => simp [e.div]
    | some v =>
      simp only [Option.map_some, e.len]
      split
      · simp
      · rename_i h
        rw [e.add _ _ (by simpa using (Eq.symm (by simpa using h)))]
        exact meanLoop e tk fuel _ _ _ _

theorem moveVector (e : Equi φ ψ) (tk : Nat → Int) (c : Centroid F) :
    (mc c).moveVector tk = (fun r => (r.1, mc r.2)) <$> c.moveVector tk := by
  unfold Centroid.moveVector
  simp only [e.genNext, map_bind, bind_map_left]
  refine bind_congr fun r => ?_
  cases r.1 with
  | none => simp
  | some v =>
    have h0 : (mc r.2.1).dps.length = r.2.1.dps.length := by simp [moveCentroid]
    simp only [Option.map_some, h0, e.meanLoop, map_bind, bind_map_left]
    refine bind_congr fun q => ?_
    split <;> rfl

theorem knnLookup (e : Equi φ ψ) (tk : Nat → Int) (c : Centroid F) (v : List F) (k : Int) (drain : Bool) :
    (mc c).knnLookup tk (φ v) k drain = (fun r => (r.1.map md, mc r.2)) <$> c.knnLookup tk v k drain := by
  unfold Centroid.knnLookup
  have h0 : (mc c).dps.length = c.dps.length := by simp [moveCentroid]
  simp only [map_bind, h0, e.genAll, bind_map_left]
  refine bind_congr fun _ => bind_congr fun g => ?_
  have h1 : (mc c).knn (φ v) (g.1.map φ) k = c.knn v g.1 k := e.search _ _ _ _
  rw [h1]
  refine bind_congr fun is => ?_
  simp only [e.getAll, e.rmAll, bind_map_left, map_bind, map_pure]
  refine bind_congr fun res => ?_
  split
  · simp
  · simp

theorem receiverVecs (e : Equi φ ψ) (h : List (Centroid F)) (rs : List Nat) :
    Centroid.receiverVecs (h.map mc) rs = (Centroid.receiverVecs h rs).map φ := by
  unfold Centroid.receiverVecs
  rw [List.map_map]
  refine List.map_congr_left fun r _ => ?_
  simp only [List.getElem?_map, Function.comp]
  cases h[r]? with
  | none => simp [e.nil]
  | some c => rfl

theorem distributeLoop (e : Equi φ ψ) (tk : Nat → Int) (me : Nat) (rs : List Nat) : ∀ (ds : List (DataPoint F)) (h : List (Centroid F)),
    Centroid.distributeLoop tk me rs (ds.map md) (h.map mc) = (List.map mc) <$> Centroid.distributeLoop tk me rs ds h
  | [], h => by simp [Centroid.distributeLoop]
  | d :: ds, h => by
    rw [List.map_cons]
    unfold Centroid.distributeLoop
    simp only [idx_map, map_bind, bind_map_left]
    refine bind_congr fun c => ?_
    have h1 : (mc c).knn (md d).vec (Centroid.receiverVecs (h.map mc) rs) 1 = c.knn d.vec (Centroid.receiverVecs h rs) 1 := by
      rw [e.receiverVecs]; exact e.search _ _ _ _
    rw [h1]
    refine bind_congr fun is => ?_
    cases is with
    | nil =>
      simp only [e.addDataPoint, map_bind, bind_map_left, ← List.map_set, distributeLoop e tk me rs ds]
    | cons j js =>
      simp only [map_bind]
      refine bind_congr fun rj => ?_
      simp only [idx_map, map_bind, bind_map_left, e.addDataPoint]
      refine bind_congr fun rc => bind_congr fun a => ?_
      rw [← List.map_set]
      split
      · exact distributeLoop e tk me rs ds _
      · simp only [idx_map, map_bind, bind_map_left, e.addDataPoint, ← List.map_set, distributeLoop e tk me rs ds]

theorem distribute (e : Equi φ ψ) (tk : Nat → Int) (h : List (Centroid F)) (me : Nat) (n : Int) (rs : List Nat) :
    Centroid.distribute tk (h.map mc) me n rs = (List.map mc) <$> Centroid.distribute tk h me n rs := by
  unfold Centroid.distribute
  split
  · simp
  · simp only [idx_map, map_bind, bind_map_left, e.drainOrdered, ← List.map_set, e.distributeLoop]

/-! ### Managers -/

local notation "mm" => moveManager φ ψ

omit [GoFloat F] in
@[simp] theorem cs_moved (m : Manager F) : (mm m).centroids = m.centroids.map mc := rfl
omit [GoFloat F] in
@[simp] theorem dps_moved (c : Centroid F) : (mc c).dps = c.dps.map md := rfl
omit [GoFloat F] in
theorem set_moved (m : Manager F) (cs : List (Centroid F)) :
    ({ mm m with centroids := cs.map mc } : Manager F) = mm { m with centroids := cs } := rfl

theorem lenDP (e : Equi φ ψ) (c : Centroid F) : (mc c).lenDP = c.lenDP := by simp [Centroid.lenDP, moveCentroid]

theorem newCentroid (e : Equi φ ψ) (m : Manager F) (v : List F) : (mm m).newCentroid (φ v) = mc <$> m.newCentroid v := by
  unfold Manager.newCentroid Centroid.new
  simp only [map_bind, bind_assoc, moveManager]
  refine bind_congr fun _ => ?_
  rfl

theorem portionEntries (e : Equi φ ψ) (m : Manager F) (n : Int) : (mm m).portionEntries n = m.portionEntries n := by
  unfold Manager.portionEntries
  rw [cs_moved, List.map_map]
  congr 4
  exact List.map_congr_left fun c _ => e.lenDP c

theorem centroidVecs (e : Equi φ ψ) (m : Manager F) : (mm m).centroidVecs = m.centroidVecs.map φ := by
  simp [Manager.centroidVecs, moveCentroid, Function.comp_def]

theorem nearest (e : Equi φ ψ) (m : Manager F) (v : List F) (k : Int) :
    (mm m).knn (φ v) (mm m).centroidVecs k = m.knn v m.centroidVecs k := by
  rw [e.centroidVecs]; exact e.search _ _ _ _

theorem updateVec (e : Equi φ ψ) (m : Manager F) (a b : List F) : (mm m).updateVec (φ a) (φ b) = mm (m.updateVec a b) := by
  simp [Manager.updateVec, moveManager, e.vecMul, e.vecAdd, e.vecSub, e.vecDiv]

theorem dropVec (e : Equi φ ψ) (m : Manager F) (a : List F) : (mm m).dropVec (φ a) = mm (m.dropVec a) := by
  simp [Manager.dropVec, moveManager, e.vecMul, e.vecSub, e.vecDiv]

theorem onCentroid (e : Equi φ ψ) {α β : Type} (g : α → β) (m : Manager F) (i : Nat) (f : Centroid F → Go (α × Centroid F))
    (f' : Centroid F → Go (β × Centroid F)) (hf : ∀ c, f' (mc c) = (fun r => (g r.1, mc r.2)) <$> f c) :
    (mm m).onCentroid i f' = (fun r => (g r.1, mm r.2)) <$> m.onCentroid i f := by
  unfold Manager.onCentroid
  simp only [cs_moved, idx_map, map_bind, bind_map_left, hf, map_pure]
  refine bind_congr fun c => bind_congr fun r => ?_
  rw [← List.map_set, set_moved]
  congr 2
  exact e.updateVec _ _ _

theorem addAll (e : Equi φ ψ) (tk : Nat → Int) : ∀ (ds : List (DataPoint F)) (c : Centroid F),
    Manager.addAll tk (ds.map md) (mc c) = mc <$> Manager.addAll tk ds c
  | [], c => by simp [Manager.addAll]
  | d :: ds, c => by
    rw [List.map_cons]
    unfold Manager.addAll
    simp only [e.addDataPoint, map_bind, bind_map_left, addAll e tk ds]

theorem splitCentroid (e : Equi φ ψ) (tk : Nat → Int) (m : Manager F) (i : Nat) (n : Int) :
    (mm m).splitCentroid tk i n = (fun r => (r.1.map mc, mm r.2)) <$> m.splitCentroid tk i n := by
  unfold Manager.splitCentroid
  rw [cs_moved, List.getElem?_map]
  cases m.centroids[i]? with
  | none => simp
  | some old =>
    simp only [Option.map_some]
    split
    · simp
    · have h : (mc old).vec = φ old.vec := rfl
      simp only [h, e.newCentroid, e.drainUnordered, e.addAll, map_bind, bind_map_left, map_pure, ← List.map_set, set_moved,
        Option.map_some]

theorem managerAdd (e : Equi φ ψ) (tk : Nat → Int) (m : Manager F) (d : DataPoint F) :
    (mm m).addDataPoint tk (md d) = (fun r => (r.1, mm r.2)) <$> m.addDataPoint tk d := by
  unfold Manager.addDataPoint
  have hv : (md d).vec = φ d.vec := rfl
  simp only [map_bind, expired_moved]
  refine bind_congr fun b => ?_
  split
  · simp
  · rw [cs_moved, List.length_map]
    split
    · simp only [hv, e.newCentroid, e.addDataPoint, map_bind, bind_map_left, map_pure]
      refine bind_congr fun c => bind_congr fun r => ?_
      simp [moveManager, moveCentroid]
    · rw [hv, e.nearest]
      simp only [map_bind]
      refine bind_congr fun is => ?_
      cases is with
      | nil => simp
      | cons j js =>
        simp only [idx_map, e.addDataPoint, map_bind, bind_map_left]
        refine bind_congr fun c => bind_congr fun r => ?_
        rw [← List.map_set, set_moved]
        have hu : (mm { m with centroids := m.centroids.set j r.2 }).updateVec (mc c).vec (mc r.2).vec =
            mm (({ m with centroids := m.centroids.set j r.2 } : Manager F).updateVec c.vec r.2.vec) := e.updateVec _ _ _
        rw [hu, e.lenDP]
        generalize ({ m with centroids := m.centroids.set j r.2 } : Manager F).updateVec c.vec r.2.vec = m1
        have ht : (mm m1).threshold = m1.threshold := rfl
        rw [ht]
        split
        · simp
        · split
          · simp only [e.splitCentroid, map_bind, bind_map_left]
            refine bind_congr fun s => ?_
            cases s.1 with
            | none => simp
            | some nc => simp [moveManager]
          · simp

theorem drainLoop (e : Equi φ ψ) (f : Centroid F → Int → Go (List (DataPoint F) × Centroid F))
    (hf : ∀ c n, f (mc c) n = (fun r => (r.1.map md, mc r.2)) <$> f c n) :
    ∀ (l : List (Nat × Nat)) (m : Manager F) (res : List (DataPoint F)),
    Manager.drainLoop f l (mm m) (res.map md) = (fun r => (r.1.map md, mm r.2)) <$> Manager.drainLoop f l m res
  | [], m, res => by simp [Manager.drainLoop]
  | (i, p) :: l, m, res => by
    unfold Manager.drainLoop
    rw [e.onCentroid (List.map md) m i (fun c => f c p) (fun c => f c p) fun c => hf c p]
    simp only [map_bind, bind_map_left, ← List.map_append, drainLoop e f hf l]

theorem managerDrainUnordered (e : Equi φ ψ) (tk : Nat → Int) (ord) (m : Manager F) (n : Int) :
    (mm m).drainUnordered tk ord n = (fun r => (r.1.map md, mm r.2)) <$> m.drainUnordered tk ord n := by
  unfold Manager.drainUnordered
  rw [e.portionEntries]
  simp only [map_bind]
  refine bind_congr fun _ => ?_
  exact e.drainLoop _ (fun c n => e.drainUnordered tk c n) _ m []

theorem managerDrainOrdered (e : Equi φ ψ) (tk : Nat → Int) (ord) (m : Manager F) (n : Int) :
    (mm m).drainOrdered tk ord n = (fun r => (r.1.map md, mm r.2)) <$> m.drainOrdered tk ord n := by
  unfold Manager.drainOrdered
  rw [e.portionEntries]
  simp only [map_bind]
  refine bind_congr fun _ => ?_
  exact e.drainLoop _ (fun c n => e.drainOrdered tk c n) _ m []

theorem managerExpireLoop (e : Equi φ ψ) (tk : Nat → Int) : ∀ (is : List Nat) (m : Manager F),
    Manager.expireLoop tk is (mm m) = mm <$> Manager.expireLoop tk is m
  | [], m => by simp [Manager.expireLoop]
  | i :: is, m => by
    unfold Manager.expireLoop
    rw [e.onCentroid id m i (fun c => do let c' ← c.expire tk; pure ((), c')) _ fun c => by
      simp only [e.expire, bind_map_left, map_bind, map_pure, id]]
    simp only [map_bind, bind_map_left, managerExpireLoop e tk is]

theorem managerExpire (e : Equi φ ψ) (tk : Nat → Int) (m : Manager F) : (mm m).expire tk = mm <$> m.expire tk := by
  unfold Manager.expire
  rw [cs_moved, List.length_map]
  exact e.managerExpireLoop tk _ m

theorem managerMemTrimLoop (e : Equi φ ψ) (tk : Nat → Int) : ∀ (is : List Nat) (m : Manager F) (acc : List (Centroid F)),
    Manager.memTrimLoop tk is (mm m) (acc.map mc) = (fun r => (r.1.map mc, mm r.2)) <$> Manager.memTrimLoop tk is m acc
  | [], m, acc => by simp [Manager.memTrimLoop]
  | i :: is, m, acc => by
    unfold Manager.memTrimLoop
    rw [e.onCentroid mc m i (fun c => do let c' ← c.memTrim tk; pure (c', c')) _ fun c => by
      simp only [e.memTrim, bind_map_left, map_bind, map_pure]]
    simp only [map_bind, bind_map_left, e.lenDP, cs_moved, List.length_map]
    refine bind_congr fun r => ?_
    have ha : (if r.1.lenDP ≠ 0 then acc.map mc ++ [mc r.1] else acc.map mc) =
        (if r.1.lenDP ≠ 0 then acc ++ [r.1] else acc).map mc := by split <;> simp
    rw [ha]
    have hv : (mm r.2).dropVec (mc r.1).vec = mm (r.2.dropVec r.1.vec) := e.dropVec _ _
    rw [hv]
    split
    · exact managerMemTrimLoop e tk is _ _
    · exact managerMemTrimLoop e tk is _ _

theorem managerMemTrim (e : Equi φ ψ) (tk : Nat → Int) (m : Manager F) : (mm m).memTrim tk = mm <$> m.memTrim tk := by
  unfold Manager.memTrim
  rw [cs_moved, List.length_map]
  have h := e.managerMemTrimLoop tk (List.range m.centroids.length) m []
  rw [List.map_nil] at h
  rw [h]
  simp only [map_bind, bind_map_left, map_pure]
  rfl

theorem moveAll (e : Equi φ ψ) (tk : Nat → Int) : ∀ (cs : List (Centroid F)),
    Manager.moveAll tk (cs.map mc) = (List.map mc) <$> Manager.moveAll tk cs
  | [] => by simp [Manager.moveAll]
  | c :: cs => by
    rw [List.map_cons]
    unfold Manager.moveAll
    simp only [e.moveVector, map_bind, bind_map_left, moveAll e tk cs, map_pure, List.map_cons]

theorem managerMove (e : Equi φ ψ) (tk : Nat → Int) (m : Manager F) :
    (mm m).moveVector tk = (fun r => (r.1, mm r.2)) <$> m.moveVector tk := by
  unfold Manager.moveVector
  rw [cs_moved, e.moveAll]
  simp only [map_bind, bind_map_left]
  refine bind_congr fun cs => ?_
  have h : (cs.map mc).map (fun c => c.vec) = (cs.map fun c => c.vec).map φ := by
    simp [moveCentroid, Function.comp_def]
  rw [h, e.vecMean]
  dsimp only
  split <;> rfl

theorem managerDistributeLoop (e : Equi φ ψ) (tk : Nat → Int) (rs : List Nat) : ∀ (l : List (Nat × Nat)) (h : List (Centroid F)),
    Manager.distributeLoop tk rs l (h.map mc) = (List.map mc) <$> Manager.distributeLoop tk rs l h
  | [], h => by simp [Manager.distributeLoop]
  | (i, p) :: l, h => by
    unfold Manager.distributeLoop
    simp only [e.distribute, map_bind, bind_map_left, managerDistributeLoop e tk rs l]

theorem managerDistribute (e : Equi φ ψ) (tk : Nat → Int) (ord) (m : Manager F) (n : Int) (ext : List (Centroid F)) (rs : List Nat) :
    (mm m).distribute tk ord n (ext.map mc) rs = (fun r => (mm r.1, r.2.map mc)) <$> m.distribute tk ord n ext rs := by
  unfold Manager.distribute
  split
  · simp
  · rw [e.portionEntries, cs_moved, ← List.map_append]
    simp only [e.managerDistributeLoop, map_bind, bind_map_left, List.length_map, ← List.map_take, set_moved, e.managerMove,
      map_pure, List.map_drop]

theorem managerInternal (e : Equi φ ψ) (tk : Nat → Int) (ord) (m : Manager F) (n : Int) :
    (mm m).distributeInternal tk ord n = mm <$> m.distributeInternal tk ord n := by
  unfold Manager.distributeInternal
  have h := e.managerDistribute tk ord m n [] (List.range m.centroids.length)
  rw [List.map_nil] at h
  rw [cs_moved, List.length_map, h]
  simp only [map_bind, bind_map_left, map_pure]

theorem lookupTake (e : Equi φ ψ) (tk : Nat → Int) (k : Int) (drain : Bool) : ∀ (ds res : List (DataPoint F)) (c : Centroid F),
    Manager.lookupTake tk k drain (ds.map md) (res.map md) (mc c) =
      (fun r => (r.1.map md, mc r.2)) <$> Manager.lookupTake tk k drain ds res c
  | [], res, c => by simp [Manager.lookupTake]
  | d :: ds, res, c => by
    rw [List.map_cons]
    unfold Manager.lookupTake
    rw [List.length_map]
    split
    · have h := lookupTake e tk k drain ds (res ++ [d]) c
      rw [List.map_append] at h
      exact h
    · split
      · simp only [e.addDataPoint, map_bind, bind_map_left, lookupTake e tk k drain ds]
      · exact lookupTake e tk k drain ds res c

theorem lookupLoop (e : Equi φ ψ) (tk : Nat → Int) (v : List F) (k : Int) (drain : Bool) :
    ∀ (is : List Nat) (m : Manager F) (res : List (DataPoint F)),
    Manager.lookupLoop tk (φ v) k drain is (mm m) (res.map md) =
      (fun r => (r.1.map md, mm r.2)) <$> Manager.lookupLoop tk v k drain is m res
  | [], m, res => by simp [Manager.lookupLoop]
  | i :: is, m, res => by
    unfold Manager.lookupLoop
    rw [List.length_map]
    split
    · simp
    · rw [e.onCentroid (List.map md) m i (fun c => do
        let q ← c.knnLookup tk v (k - res.length) drain
        Manager.lookupTake tk k drain q.1 res q.2) _ fun c => by
          simp only [e.knnLookup, bind_map_left, map_bind, e.lookupTake]]
      simp only [map_bind, bind_map_left, lookupLoop e tk v k drain is]

theorem managerLookup (e : Equi φ ψ) (tk : Nat → Int) (m : Manager F) (v : List F) (k : Int) (drain : Bool) :
    (mm m).knnLookup tk (φ v) k drain = (fun r => (r.1.map md, mm r.2)) <$> m.knnLookup tk v k drain := by
  unfold Manager.knnLookup
  rw [e.nearest]
  simp only [map_bind]
  refine bind_congr fun _ => bind_congr fun is => ?_
  exact e.lookupLoop tk v k drain is m []

theorem managerGetAll (e : Equi φ ψ) : ∀ (is : List Nat) (m : Manager F), Manager.getAll is (mm m) = (List.map mc) <$> Manager.getAll is m
  | [], m => by simp [Manager.getAll]
  | i :: is, m => by
    unfold Manager.getAll
    simp only [cs_moved, idx_map, map_bind, bind_map_left, managerGetAll e is, map_pure, List.map_cons]

theorem deleteAt (e : Equi φ ψ) (m : Manager F) (j : Nat) : (mm m).deleteAt j = mm <$> m.deleteAt j := by
  unfold Manager.deleteAt
  simp only [cs_moved, idx_map, map_bind, bind_map_left, map_pure]
  refine bind_congr fun c => ?_
  have h : (mm m).dropVec (mc c).vec = mm (m.dropVec c.vec) := e.dropVec _ _
  rw [h, cs_moved, eraseIdx_mapped, set_moved]

theorem deleteAll (e : Equi φ ψ) : ∀ (is : List Nat) (m : Manager F), Manager.deleteAll is (mm m) = mm <$> Manager.deleteAll is m
  | [], m => by simp [Manager.deleteAll]
  | i :: is, m => by
    unfold Manager.deleteAll
    simp only [e.deleteAt, map_bind, bind_map_left, deleteAll e is]

theorem managerNearest (e : Equi φ ψ) (m : Manager F) (v : List F) (n : Int) (drain : Bool) :
    (mm m).nearestCentroids (φ v) n drain = (fun r => (r.1.map (List.map mc), mm r.2)) <$> m.nearestCentroids v n drain := by
  unfold Manager.nearestCentroids
  rw [e.nearest]
  simp only [map_bind]
  refine bind_congr fun is => ?_
  split
  · simp
  · simp only [map_bind, e.managerGetAll, bind_map_left]
    refine bind_congr fun _ => bind_congr fun cs => ?_
    split
    · simp only [e.deleteAll, map_bind, bind_map_left, map_pure, Option.map_some]
    · simp

theorem splitLoop (e : Equi φ ψ) (tk : Nat → Int) (pred pred' : Centroid F → Bool) (hp : ∀ c, pred' (mc c) = pred c) :
    ∀ (is : List Nat) (m : Manager F) (acc : List (Centroid F)),
    Manager.splitLoop tk pred' is (mm m) (acc.map mc) = (fun r => (r.1.map mc, mm r.2)) <$> Manager.splitLoop tk pred is m acc
  | [], m, acc => by simp [Manager.splitLoop]
  | i :: is, m, acc => by
    unfold Manager.splitLoop
    simp only [cs_moved, idx_map, map_bind, bind_map_left, hp, e.lenDP]
    refine bind_congr fun c => ?_
    split
    · exact splitLoop e tk pred pred' hp is m acc
    · simp only [e.splitCentroid, map_bind, bind_map_left]
      refine bind_congr fun r => ?_
      cases r.1 with
      | none => exact splitLoop e tk pred pred' hp is r.2 acc
      | some nc =>
        have h := splitLoop e tk pred pred' hp is r.2 (acc ++ [nc])
        rw [List.map_append] at h
        exact h

theorem managerSplit (e : Equi φ ψ) (tk : Nat → Int) (m : Manager F) (pred pred' : Centroid F → Bool) (hp : ∀ c, pred' (mc c) = pred c) :
    (mm m).splitCentroids tk pred' = mm <$> m.splitCentroids tk pred := by
  unfold Manager.splitCentroids
  have h := e.splitLoop tk pred pred' hp (List.range m.centroids.length) m []
  rw [List.map_nil] at h
  rw [cs_moved, List.length_map, h]
  simp only [map_bind, bind_map_left, map_pure, cs_moved, ← List.map_append, set_moved]

theorem mergeInner (e : Equi φ ψ) (tk : Nat → Int) (pred pred' : Centroid F → Bool) (hp : ∀ c, pred' (mc c) = pred c) (i : Nat) :
    ∀ (js marks : List Nat) (cs : List (Centroid F)),
    Manager.mergeInner tk pred' i js marks (cs.map mc) = (fun r => (r.1, r.2.map mc)) <$> Manager.mergeInner tk pred i js marks cs
  | [], marks, cs => by simp [Manager.mergeInner]
  | j :: js, marks, cs => by
    unfold Manager.mergeInner
    split
    · exact mergeInner e tk pred pred' hp i js marks cs
    · simp only [idx_map, map_bind, bind_map_left, e.lenDP, e.drainUnordered, ← List.map_set, e.addAll, hp]
      refine bind_congr fun c => bind_congr fun r => bind_congr fun c' => bind_congr fun c'' => ?_
      split
      · simp
      · exact mergeInner e tk pred pred' hp i js _ _

theorem mergeOuter (e : Equi φ ψ) (tk : Nat → Int) (pred pred' : Centroid F → Bool) (hp : ∀ c, pred' (mc c) = pred c) :
    ∀ (is marks : List Nat) (m : Manager F),
    Manager.mergeOuter tk pred' is marks (mm m) = (fun r => (r.1, mm r.2)) <$> Manager.mergeOuter tk pred is marks m
  | [], marks, m => by simp [Manager.mergeOuter]
  | i :: is, marks, m => by
    unfold Manager.mergeOuter
    simp only [cs_moved, idx_map, map_bind, bind_map_left, hp, List.length_map]
    refine bind_congr fun c => ?_
    split
    · exact mergeOuter e tk pred pred' hp is marks m
    · have h : (mm m).knn (mc c).vec (mm m).centroidVecs m.centroids.length = m.knn c.vec m.centroidVecs m.centroids.length :=
        e.nearest m c.vec m.centroids.length
      rw [h]
      simp only [map_bind]
      refine bind_congr fun js => ?_
      simp only [e.mergeInner tk pred pred' hp, bind_map_left, idx_map, map_bind]
      refine bind_congr fun r => bind_congr fun c' => ?_
      have h2 : ({ mm m with centroids := r.2.map mc } : Manager F).updateVec (mc c).vec (mc c').vec =
          mm (({ m with centroids := r.2 } : Manager F).updateVec c.vec c'.vec) :=
        e.updateVec { m with centroids := r.2 } c.vec c'.vec
      rw [h2]
      exact mergeOuter e tk pred pred' hp is _ _

theorem managerMerge (e : Equi φ ψ) (tk : Nat → Int) (m : Manager F) (pred pred' : Centroid F → Bool) (hp : ∀ c, pred' (mc c) = pred c) :
    (mm m).mergeCentroids tk pred' = mm <$> m.mergeCentroids tk pred := by
  unfold Manager.mergeCentroids
  rw [cs_moved, List.length_map, e.mergeOuter tk pred pred' hp]
  simp only [map_bind, bind_map_left, e.deleteAll]

/-! ### Histories -/

theorem back_centroid (e : Equi φ ψ) (c : Centroid F) : moveCentroid ψ φ (mc c) = c := by
  have h : ψ ∘ φ = id := funext e.left
  have hs (s : Search F) : moveSearch φ (moveSearch ψ s) = s := by
    funext v pool k
    simp [moveSearch, h, e.left]
  have hd : (moveDP ψ ∘ md : DataPoint F → DataPoint F) = id := by
    funext d; simp [moveDP, e.left]
  simp [moveCentroid, hs, hd, e.left]

theorem call (e : Equi φ ψ) (tk : Nat → Int) (w : ManagerWorld F) (o : ManagerCall F) :
    (moveCall φ ψ o).run tk (moveWorld φ ψ w) = moveWorld φ ψ <$> o.run tk w := by
  cases o with
  | add d =>
    simp only [moveCall, ManagerCall.run, moveWorld, e.managerAdd, map_bind, bind_map_left, map_pure]
    refine bind_congr fun r => ?_
    split <;> rfl
  | drainUnordered n ord =>
    simp only [moveCall, ManagerCall.run, moveWorld, e.managerDrainUnordered, map_bind, bind_map_left, map_pure, List.map_append]
  | drainOrdered n ord =>
    simp only [moveCall, ManagerCall.run, moveWorld, e.managerDrainOrdered, map_bind, bind_map_left, map_pure, List.map_append]
  | expire => simp only [moveCall, ManagerCall.run, moveWorld, e.managerExpire, map_bind, bind_map_left, map_pure]
  | memTrim => simp only [moveCall, ManagerCall.run, moveWorld, e.managerMemTrim, map_bind, bind_map_left, map_pure]
  | moveVector => simp only [moveCall, ManagerCall.run, moveWorld, e.managerMove, map_bind, bind_map_left, map_pure]
  | distributeInternal n ord =>
    simp only [moveCall, ManagerCall.run, moveWorld, e.managerInternal, map_bind, bind_map_left, map_pure]
  | knnLookup v k drain =>
    simp only [moveCall, ManagerCall.run, moveWorld, e.managerLookup, map_bind, bind_map_left, map_pure, List.map_append]
    refine bind_congr fun r => ?_
    split <;> simp
  | nearestCentroids v n drain =>
    simp only [moveCall, ManagerCall.run, moveWorld, e.managerNearest, map_bind, bind_map_left, map_pure, List.map_append]
    refine bind_congr fun r => ?_
    cases r.1 with
    | none => split <;> simp
    | some cs => split <;> simp [List.map_flatMap, List.flatMap_map]
  | splitCentroids pred =>
    simp only [moveCall, ManagerCall.run, moveWorld, map_bind, map_pure]
    rw [e.managerSplit tk w.cm pred _ fun c => by rw [e.back_centroid]]
    simp only [bind_map_left]
  | mergeCentroids pred =>
    simp only [moveCall, ManagerCall.run, moveWorld, map_bind, map_pure]
    rw [e.managerMerge tk w.cm pred _ fun c => by rw [e.back_centroid]]
    simp only [bind_map_left]

theorem calls (e : Equi φ ψ) (tk : Nat → Int) : ∀ (os : List (ManagerCall F)) (w : ManagerWorld F),
    runManagerCalls tk (os.map (moveCall φ ψ)) (moveWorld φ ψ w) = moveWorld φ ψ <$> runManagerCalls tk os w
  | [], w => by simp [runManagerCalls]
  | o :: os, w => by
    rw [List.map_cons]
    unfold runManagerCalls
    simp only [e.call, map_bind, bind_map_left, calls e tk os]

theorem run (e : Equi φ ψ) (tk : Nat → Int) (iv : List F) (cap thr : Int) (knn kfn : Search F) (os : List (ManagerCall F)) :
    runManager tk (φ iv) cap thr (moveSearch ψ knn) (moveSearch ψ kfn) (os.map (moveCall φ ψ)) =
      moveWorld φ ψ <$> runManager tk iv cap thr knn kfn os := by
  unfold runManager Manager.new
  simp only [map_bind, bind_assoc, pure_bind]
  refine bind_congr fun _ => ?_
  exact e.calls tk os ⟨⟨iv, cap, [], thr, knn, kfn⟩, [], []⟩

end Equi
end Trypo
