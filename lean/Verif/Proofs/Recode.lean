import Verif.Spec.Recode
import Verif.Proofs.Symmetry

/-!
# Writing the data in another way commutes with every operation
-/

set_option linter.unusedSectionVars false
set_option linter.unusedVariables false
set_option linter.unusedSimpArgs false

namespace Trypo
open GoFloat Spec

variable {F : Type} [GoFloat F]

namespace Recode
variable {g : DataPoint F → DataPoint F} {φ ψ : List F → List F} {tk tk' : Nat → Int}

theorem expired (e : Recode g φ ψ tk tk') (d : DataPoint F) : (g d).expired tk' = d.expired tk := by
  funext p
  simp only [DataPoint.expired, e.exp]

/-! ### Centroids -/

local notation "mc" => codeCentroid g φ ψ
local notation "md" => g

theorem addRaw (e : Recode g φ ψ tk tk') (c : Centroid F) (d : DataPoint F) : (mc c).addRaw (md d) = mc (c.addRaw d) := by
  simp [Centroid.addRaw, codeCentroid, e.vec, e.vecMul, e.vecAdd, e.vecDiv]

theorem addDataPoint (e : Recode g φ ψ tk tk') (c : Centroid F) (d : DataPoint F) :
    (mc c).addDataPoint tk' (md d) = (fun r => (r.1, mc r.2)) <$> c.addDataPoint tk d := by
  unfold Centroid.addDataPoint
  have h1 : (md d).vec.length = d.vec.length := by rw [e.vec, e.len]
  have h2 : (mc c).vec.length = c.vec.length := e.len _
  rw [h1, h2]
  split
  · simp
  · simp only [map_bind, e.expired, e.addRaw]
    refine bind_congr fun b => ?_
    split <;> simp

theorem rm (e : Recode g φ ψ tk tk') (c : Centroid F) (i : Nat) : (mc c).rm i = mc <$> c.rm i := by
  unfold Centroid.rm
  have h : (mc c).dps[i]? = c.dps[i]?.map md := by simp [codeCentroid]
  rw [h]
  cases c.dps[i]? with
  | none => rfl
  | some d =>
    simp only [Option.map_some, map_pure]
    congr 1
    simp only [codeCentroid, e.vec, List.length_map, e.vecMul, e.vecSub, e.vecDiv, Equi.eraseIdx_mapped, Centroid.mk.injEq, and_true]
    split <;> rfl

theorem skipExpired (e : Recode g φ ψ tk tk') (i : Nat) : ∀ (fuel : Nat) (c : Centroid F),
    Centroid.skipExpired tk' i fuel (mc c) = mc <$> Centroid.skipExpired tk i fuel c
  | 0, c => by simp [Centroid.skipExpired]
  | fuel + 1, c => by
    unfold Centroid.skipExpired
    have h : (mc c).dps[i]? = c.dps[i]?.map md := by simp [codeCentroid]
    rw [h]
    cases c.dps[i]? with
    | none => simp
    | some d =>
      simp only [Option.map_some, map_bind, e.expired]
      refine bind_congr fun b => ?_
      split
      · simp only [e.rm, map_bind, bind_map_left, skipExpired e i fuel]
      · simp

theorem genNext (e : Recode g φ ψ tk tk') (c : Centroid F) (i : Nat) :
    Centroid.genNext tk' (mc c) i = (fun r => (r.1.map φ, mc r.2.1, r.2.2)) <$> Centroid.genNext tk c i := by
  unfold Centroid.genNext
  have h0 : (mc c).dps.length = c.dps.length := by simp [codeCentroid]
  rw [h0, e.skipExpired]
  simp only [map_bind, bind_map_left]
  refine bind_congr fun c' => ?_
  have h : (mc c').dps[i]? = c'.dps[i]?.map md := by simp [codeCentroid]
  rw [h]
  cases c'.dps[i]? with
  | none => simp
  | some d => simp [e.vec]

theorem genAll (e : Recode g φ ψ tk tk') : ∀ (fuel : Nat) (c : Centroid F) (i : Nat),
    Centroid.genAll tk' fuel (mc c) i = (fun r => (r.1.map φ, mc r.2)) <$> Centroid.genAll tk fuel c i
  | 0, c, i => by simp [Centroid.genAll]
  | fuel + 1, c, i => by
    unfold Centroid.genAll
    rw [e.genNext]
    simp only [map_bind, bind_map_left]
    refine bind_congr fun r => ?_
    cases r.1 with
    | none => simp
    | some v => simp [genAll e fuel]

theorem drainUnorderedLoop (e : Recode g φ ψ tk tk') (n : Nat) : ∀ (fuel : Nat) (c : Centroid F) (res : List (DataPoint F)),
    Centroid.drainUnorderedLoop tk' n fuel (mc c) (res.map md) = (fun r => (r.1.map md, mc r.2)) <$> Centroid.drainUnorderedLoop tk n fuel c res
  | 0, c, res => by simp [Centroid.drainUnorderedLoop]
  | fuel + 1, c, res => by
    unfold Centroid.drainUnorderedLoop
    have h : (mc c).dps = c.dps.map md := rfl
    rw [h]
    cases hd : c.dps with
    | nil => simp
    | cons d ds =>
      simp only [List.map_cons, List.length_map]
      split
      · simp only [map_bind, e.expired]
        refine bind_congr fun b => ?_
        simp only [e.rm, bind_map_left]
        refine bind_congr fun c' => ?_
        have : (if b = true then res.map md else res.map md ++ [md d]) = (if b = true then res else res ++ [d]).map md := by
          split <;> simp
        rw [this]
        exact drainUnorderedLoop e n fuel c' _
      · simp

theorem drainUnordered (e : Recode g φ ψ tk tk') (c : Centroid F) (n : Int) :
    (mc c).drainUnordered tk' n = (fun r => (r.1.map md, mc r.2)) <$> c.drainUnordered tk n := by
  unfold Centroid.drainUnordered
  have h0 : (mc c).dps.length = c.dps.length := by simp [codeCentroid]
  simp only [map_bind, h0]
  refine bind_congr fun _ => ?_
  exact e.drainUnorderedLoop _ _ c []

theorem rmAll (e : Recode g φ ψ tk tk') : ∀ (is : List Nat) (c : Centroid F), Centroid.rmAll is (mc c) = mc <$> Centroid.rmAll is c
  | [], c => by simp [Centroid.rmAll]
  | i :: is, c => by
    unfold Centroid.rmAll
    simp only [e.rm, map_bind, bind_map_left, rmAll e is]

theorem getAll (e : Recode g φ ψ tk tk') : ∀ (is : List Nat) (c : Centroid F), Centroid.getAll is (mc c) = (List.map md) <$> Centroid.getAll is c
  | [], c => by simp [Centroid.getAll]
  | i :: is, c => by
    unfold Centroid.getAll
    have h : (mc c).dps = c.dps.map md := rfl
    simp only [h, Equi.idx_map, map_bind, bind_map_left, getAll e is, map_pure, List.map_cons]

theorem drainOrdered (e : Recode g φ ψ tk tk') (c : Centroid F) (n : Int) :
    (mc c).drainOrdered tk' n = (fun r => (r.1.map md, mc r.2)) <$> c.drainOrdered tk n := by
  unfold Centroid.drainOrdered
  have h0 : (mc c).dps.length = c.dps.length := by simp [codeCentroid]
  simp only [map_bind, h0, e.genAll, bind_map_left]
  refine bind_congr fun _ => bind_congr fun g => ?_
  have h1 : (mc c).kfn (mc c).vec (g.1.map φ) n = c.kfn c.vec g.1 n := e.search _ _ _ _
  rw [h1]
  refine bind_congr fun is => ?_
  simp only [e.getAll, e.rmAll, bind_map_left, map_bind, map_pure]

theorem expireLoop (e : Recode g φ ψ tk tk') : ∀ (fuel i : Nat) (c : Centroid F),
    Centroid.expireLoop tk' fuel i (mc c) = mc <$> Centroid.expireLoop tk fuel i c
  | 0, i, c => by simp [Centroid.expireLoop]
  | fuel + 1, i, c => by
    unfold Centroid.expireLoop
    have h : (mc c).dps[i]? = c.dps[i]?.map md := by simp [codeCentroid]
    rw [h]
    cases c.dps[i]? with
    | none => simp
    | some d =>
      simp only [Option.map_some, map_bind, e.expired]
      refine bind_congr fun b => ?_
      split
      · simp only [e.rm, map_bind, bind_map_left, expireLoop e fuel i]
      · exact expireLoop e fuel (i + 1) c

theorem expire (e : Recode g φ ψ tk tk') (c : Centroid F) : (mc c).expire tk' = mc <$> c.expire tk := by
  unfold Centroid.expire
  have h0 : (mc c).dps.length = c.dps.length := by simp [codeCentroid]
  rw [h0]
  exact e.expireLoop _ 0 c

theorem memTrimLoop (e : Recode g φ ψ tk tk') : ∀ (fuel : Nat) (c : Centroid F) (acc : List (DataPoint F)),
    Centroid.memTrimLoop tk' fuel (mc c) (acc.map md) = (fun r => (r.1.map md, mc r.2)) <$> Centroid.memTrimLoop tk fuel c acc
  | 0, c, acc => by simp [Centroid.memTrimLoop]
  | fuel + 1, c, acc => by
    unfold Centroid.memTrimLoop
    have h0 : (mc c).dps.length = c.dps.length := by simp [codeCentroid]
    rw [h0]
    split
    · simp only [e.drainUnordered, map_bind, bind_map_left]
      refine bind_congr fun r => ?_
      rw [← List.map_append]
      exact memTrimLoop e fuel r.2 _
    · simp

theorem memTrim (e : Recode g φ ψ tk tk') (c : Centroid F) : (mc c).memTrim tk' = mc <$> c.memTrim tk := by
  unfold Centroid.memTrim
  have h0 : (mc c).dps.length = c.dps.length := by simp [codeCentroid]
  have h := e.memTrimLoop c.dps.length c []
  rw [List.map_nil] at h
  rw [h0, h]
  simp only [map_bind, bind_map_left]
  refine bind_congr fun r => ?_
  rfl

theorem meanLoop (e : Recode g φ ψ tk tk') : ∀ (fuel : Nat) (res : List F) (n : F) (c : Centroid F) (i : Nat),
    Centroid.meanLoop tk' fuel (φ res) n (mc c) i = (fun r => ((φ r.1.1, r.1.2), mc r.2)) <$> Centroid.meanLoop tk fuel res n c i
  | 0, res, n, c, i => by simp [Centroid.meanLoop, e.div]
  | fuel + 1, res, n, c, i => by
    unfold Centroid.meanLoop
    simp only [e.genNext, map_bind, bind_map_left]
    refine bind_congr fun r => ?_
    cases r.1 with
    | none => simp [e.div]
    | some v =>
      simp only [Option.map_some, e.len]
      split
      · simp
      · rename_i h
        rw [e.add _ _ (by simpa using (Eq.symm (by simpa using h)))]
        exact meanLoop e fuel _ _ _ _

theorem moveVector (e : Recode g φ ψ tk tk') (c : Centroid F) :
    (mc c).moveVector tk' = (fun r => (r.1, mc r.2)) <$> c.moveVector tk := by
  unfold Centroid.moveVector
  simp only [e.genNext, map_bind, bind_map_left]
  refine bind_congr fun r => ?_
  cases r.1 with
  | none => simp
  | some v =>
    have h0 : (mc r.2.1).dps.length = r.2.1.dps.length := by simp [codeCentroid]
    simp only [Option.map_some, h0, e.meanLoop, map_bind, bind_map_left]
    refine bind_congr fun q => ?_
    split <;> rfl

theorem knnLookup (e : Recode g φ ψ tk tk') (c : Centroid F) (v : List F) (k : Int) (drain : Bool) :
    (mc c).knnLookup tk' (φ v) k drain = (fun r => (r.1.map md, mc r.2)) <$> c.knnLookup tk v k drain := by
  unfold Centroid.knnLookup
  have h0 : (mc c).dps.length = c.dps.length := by simp [codeCentroid]
  simp only [map_bind, h0, e.genAll, bind_map_left]
  refine bind_congr fun _ => bind_congr fun g => ?_
  have h1 : (mc c).knn (φ v) (g.1.map φ) k = c.knn v g.1 k := e.search _ _ _ _
  rw [h1]
  refine bind_congr fun is => ?_
  simp only [e.getAll, e.rmAll, bind_map_left, map_bind, map_pure]
  refine bind_congr fun res => ?_
  split
  · simp
  · simp

theorem receiverVecs (e : Recode g φ ψ tk tk') (h : List (Centroid F)) (rs : List Nat) :
    Centroid.receiverVecs (h.map mc) rs = (Centroid.receiverVecs h rs).map φ := by
  unfold Centroid.receiverVecs
  rw [List.map_map]
  refine List.map_congr_left fun r _ => ?_
  simp only [List.getElem?_map, Function.comp]
  cases h[r]? with
  | none => simp [e.nil]
  | some c => rfl

theorem distributeLoop (e : Recode g φ ψ tk tk') (me : Nat) (rs : List Nat) : ∀ (ds : List (DataPoint F)) (h : List (Centroid F)),
    Centroid.distributeLoop tk' me rs (ds.map md) (h.map mc) = (List.map mc) <$> Centroid.distributeLoop tk me rs ds h
  | [], h => by simp [Centroid.distributeLoop]
  | d :: ds, h => by
    rw [List.map_cons]
    unfold Centroid.distributeLoop
    simp only [Equi.idx_map, map_bind, bind_map_left]
    refine bind_congr fun c => ?_
    have h1 : (mc c).knn (md d).vec (Centroid.receiverVecs (h.map mc) rs) 1 = c.knn d.vec (Centroid.receiverVecs h rs) 1 := by
      rw [e.receiverVecs, e.vec]; exact e.search _ _ _ _
    rw [h1]
    refine bind_congr fun is => ?_
    cases is with
    | nil =>
      simp only [e.addDataPoint, map_bind, bind_map_left, ← List.map_set, distributeLoop e me rs ds]
    | cons j js =>
      simp only [map_bind]
      refine bind_congr fun rj => ?_
      simp only [Equi.idx_map, map_bind, bind_map_left, e.addDataPoint]
      refine bind_congr fun rc => bind_congr fun a => ?_
      rw [← List.map_set]
      split
      · exact distributeLoop e me rs ds _
      · simp only [Equi.idx_map, map_bind, bind_map_left, e.addDataPoint, ← List.map_set, distributeLoop e me rs ds]

theorem distribute (e : Recode g φ ψ tk tk') (h : List (Centroid F)) (me : Nat) (n : Int) (rs : List Nat) :
    Centroid.distribute tk' (h.map mc) me n rs = (List.map mc) <$> Centroid.distribute tk h me n rs := by
  unfold Centroid.distribute
  split
  · simp
  · simp only [Equi.idx_map, map_bind, bind_map_left, e.drainOrdered, ← List.map_set, e.distributeLoop]

/-! ### Managers -/

local notation "mm" => codeManager g φ ψ

omit [GoFloat F] in
@[simp] theorem cs_moved (m : Manager F) : (mm m).centroids = m.centroids.map mc := rfl
omit [GoFloat F] in
@[simp] theorem dps_moved (c : Centroid F) : (mc c).dps = c.dps.map md := rfl
omit [GoFloat F] in
theorem set_moved (m : Manager F) (cs : List (Centroid F)) :
    ({ mm m with centroids := cs.map mc } : Manager F) = mm { m with centroids := cs } := rfl

theorem lenDP (e : Recode g φ ψ tk tk') (c : Centroid F) : (mc c).lenDP = c.lenDP := by simp [Centroid.lenDP, codeCentroid]

theorem newCentroid (e : Recode g φ ψ tk tk') (m : Manager F) (v : List F) : (mm m).newCentroid (φ v) = mc <$> m.newCentroid v := by
  unfold Manager.newCentroid Centroid.new
  simp only [map_bind, bind_assoc, codeManager]
  refine bind_congr fun _ => ?_
  rfl

theorem portionEntries (e : Recode g φ ψ tk tk') (m : Manager F) (n : Int) : (mm m).portionEntries n = m.portionEntries n := by
  unfold Manager.portionEntries
  rw [cs_moved, List.map_map]
  congr 4
  exact List.map_congr_left fun c _ => e.lenDP c

theorem centroidVecs (e : Recode g φ ψ tk tk') (m : Manager F) : (mm m).centroidVecs = m.centroidVecs.map φ := by
  simp [Manager.centroidVecs, codeCentroid, Function.comp_def]

theorem nearest (e : Recode g φ ψ tk tk') (m : Manager F) (v : List F) (k : Int) :
    (mm m).knn (φ v) (mm m).centroidVecs k = m.knn v m.centroidVecs k := by
  rw [e.centroidVecs]; exact e.search _ _ _ _

theorem updateVec (e : Recode g φ ψ tk tk') (m : Manager F) (a b : List F) : (mm m).updateVec (φ a) (φ b) = mm (m.updateVec a b) := by
  simp [Manager.updateVec, codeManager, e.vecMul, e.vecAdd, e.vecSub, e.vecDiv]

theorem dropVec (e : Recode g φ ψ tk tk') (m : Manager F) (a : List F) : (mm m).dropVec (φ a) = mm (m.dropVec a) := by
  simp [Manager.dropVec, codeManager, e.vecMul, e.vecSub, e.vecDiv]

theorem onCentroid (e : Recode g φ ψ tk tk') {α β : Type} (f0 : α → β) (m : Manager F) (i : Nat) (f : Centroid F → Go (α × Centroid F))
    (f' : Centroid F → Go (β × Centroid F)) (hf : ∀ c, f' (mc c) = (fun r => (f0 r.1, mc r.2)) <$> f c) :
    (mm m).onCentroid i f' = (fun r => (f0 r.1, mm r.2)) <$> m.onCentroid i f := by
  unfold Manager.onCentroid
  simp only [cs_moved, Equi.idx_map, map_bind, bind_map_left, hf, map_pure]
  refine bind_congr fun c => bind_congr fun r => ?_
  rw [← List.map_set, set_moved]
  congr 2
  exact e.updateVec _ _ _

theorem addAll (e : Recode g φ ψ tk tk') : ∀ (ds : List (DataPoint F)) (c : Centroid F),
    Manager.addAll tk' (ds.map md) (mc c) = mc <$> Manager.addAll tk ds c
  | [], c => by simp [Manager.addAll]
  | d :: ds, c => by
    rw [List.map_cons]
    unfold Manager.addAll
    simp only [e.addDataPoint, map_bind, bind_map_left, addAll e ds]

theorem splitCentroid (e : Recode g φ ψ tk tk') (m : Manager F) (i : Nat) (n : Int) :
    (mm m).splitCentroid tk' i n = (fun r => (r.1.map mc, mm r.2)) <$> m.splitCentroid tk i n := by
  unfold Manager.splitCentroid
  rw [cs_moved, List.getElem?_map]
  cases m.centroids[i]? with
  | none => simp
  | some old =>
    simp only [Option.map_some]
    split
    · simp
    · have h : (mc old).vec = φ old.vec := rfl
      simp only [h, e.newCentroid, e.drainUnordered, e.addAll, map_bind, bind_map_left, map_pure, ← List.map_set, set_moved,
        Option.map_some]

theorem managerAdd (e : Recode g φ ψ tk tk') (m : Manager F) (d : DataPoint F) :
    (mm m).addDataPoint tk' (md d) = (fun r => (r.1, mm r.2)) <$> m.addDataPoint tk d := by
  unfold Manager.addDataPoint
  have hv : (md d).vec = φ d.vec := e.vec d
  simp only [map_bind, e.expired]
  refine bind_congr fun b => ?_
  split
  · simp
  · rw [cs_moved, List.length_map]
    split
    · simp only [hv, e.newCentroid, e.addDataPoint, map_bind, bind_map_left, map_pure]
      refine bind_congr fun c => bind_congr fun r => ?_
      simp [codeManager, codeCentroid]
    · rw [hv, e.nearest]
      simp only [map_bind]
      refine bind_congr fun is => ?_
      cases is with
      | nil => simp
      | cons j js =>
        simp only [Equi.idx_map, e.addDataPoint, map_bind, bind_map_left]
        refine bind_congr fun c => bind_congr fun r => ?_
        rw [← List.map_set, set_moved]
        have hu : (mm { m with centroids := m.centroids.set j r.2 }).updateVec (mc c).vec (mc r.2).vec =
            mm (({ m with centroids := m.centroids.set j r.2 } : Manager F).updateVec c.vec r.2.vec) := e.updateVec _ _ _
        rw [hu, e.lenDP]
        generalize ({ m with centroids := m.centroids.set j r.2 } : Manager F).updateVec c.vec r.2.vec = m1
        have ht : (mm m1).threshold = m1.threshold := rfl
        rw [ht]
        split
        · simp
        · split
          · simp only [e.splitCentroid, map_bind, bind_map_left]
            refine bind_congr fun s => ?_
            cases s.1 with
            | none => simp
            | some nc => simp [codeManager]
          · simp

theorem drainLoop (e : Recode g φ ψ tk tk') (f f' : Centroid F → Int → Go (List (DataPoint F) × Centroid F))
    (hf : ∀ c n, f' (mc c) n = (fun r => (r.1.map md, mc r.2)) <$> f c n) :
    ∀ (l : List (Nat × Nat)) (m : Manager F) (res : List (DataPoint F)),
    Manager.drainLoop f' l (mm m) (res.map md) = (fun r => (r.1.map md, mm r.2)) <$> Manager.drainLoop f l m res
  | [], m, res => by simp [Manager.drainLoop]
  | (i, p) :: l, m, res => by
    unfold Manager.drainLoop
    rw [e.onCentroid (List.map md) m i (fun c => f c p) (fun c => f' c p) fun c => hf c p]
    simp only [map_bind, bind_map_left, ← List.map_append, drainLoop e f f' hf l]

theorem managerDrainUnordered (e : Recode g φ ψ tk tk') (ord) (m : Manager F) (n : Int) :
    (mm m).drainUnordered tk' ord n = (fun r => (r.1.map md, mm r.2)) <$> m.drainUnordered tk ord n := by
  unfold Manager.drainUnordered
  rw [e.portionEntries]
  simp only [map_bind]
  refine bind_congr fun _ => ?_
  exact e.drainLoop _ _ (fun c n => e.drainUnordered c n) _ m []

theorem managerDrainOrdered (e : Recode g φ ψ tk tk') (ord) (m : Manager F) (n : Int) :
    (mm m).drainOrdered tk' ord n = (fun r => (r.1.map md, mm r.2)) <$> m.drainOrdered tk ord n := by
  unfold Manager.drainOrdered
  rw [e.portionEntries]
  simp only [map_bind]
  refine bind_congr fun _ => ?_
  exact e.drainLoop _ _ (fun c n => e.drainOrdered c n) _ m []

theorem managerExpireLoop (e : Recode g φ ψ tk tk') : ∀ (is : List Nat) (m : Manager F),
    Manager.expireLoop tk' is (mm m) = mm <$> Manager.expireLoop tk is m
  | [], m => by simp [Manager.expireLoop]
  | i :: is, m => by
    unfold Manager.expireLoop
    rw [e.onCentroid id m i (fun c => do let c' ← c.expire tk; pure ((), c')) _ fun c => by
      simp only [e.expire, bind_map_left, map_bind, map_pure, id]]
    simp only [map_bind, bind_map_left, managerExpireLoop e is]

theorem managerExpire (e : Recode g φ ψ tk tk') (m : Manager F) : (mm m).expire tk' = mm <$> m.expire tk := by
  unfold Manager.expire
  rw [cs_moved, List.length_map]
  exact e.managerExpireLoop _ m

theorem managerMemTrimLoop (e : Recode g φ ψ tk tk') : ∀ (is : List Nat) (m : Manager F) (acc : List (Centroid F)),
    Manager.memTrimLoop tk' is (mm m) (acc.map mc) = (fun r => (r.1.map mc, mm r.2)) <$> Manager.memTrimLoop tk is m acc
  | [], m, acc => by simp [Manager.memTrimLoop]
  | i :: is, m, acc => by
    unfold Manager.memTrimLoop
    rw [e.onCentroid mc m i (fun c => do let c' ← c.memTrim tk; pure (c', c')) _ fun c => by
      simp only [e.memTrim, bind_map_left, map_bind, map_pure]]
    simp only [map_bind, bind_map_left, e.lenDP, cs_moved, List.length_map]
    refine bind_congr fun r => ?_
    have ha : (if r.1.lenDP ≠ 0 then acc.map mc ++ [mc r.1] else acc.map mc) =
        (if r.1.lenDP ≠ 0 then acc ++ [r.1] else acc).map mc := by split <;> simp
    rw [ha]
    have hv : (mm r.2).dropVec (mc r.1).vec = mm (r.2.dropVec r.1.vec) := e.dropVec _ _
    rw [hv]
    split
    · exact managerMemTrimLoop e is _ _
    · exact managerMemTrimLoop e is _ _

theorem managerMemTrim (e : Recode g φ ψ tk tk') (m : Manager F) : (mm m).memTrim tk' = mm <$> m.memTrim tk := by
  unfold Manager.memTrim
  rw [cs_moved, List.length_map]
  have h := e.managerMemTrimLoop (List.range m.centroids.length) m []
  rw [List.map_nil] at h
  rw [h]
  simp only [map_bind, bind_map_left, map_pure]
  rfl

theorem moveAll (e : Recode g φ ψ tk tk') : ∀ (cs : List (Centroid F)),
    Manager.moveAll tk' (cs.map mc) = (List.map mc) <$> Manager.moveAll tk cs
  | [] => by simp [Manager.moveAll]
  | c :: cs => by
    rw [List.map_cons]
    unfold Manager.moveAll
    simp only [e.moveVector, map_bind, bind_map_left, moveAll e cs, map_pure, List.map_cons]

theorem managerMove (e : Recode g φ ψ tk tk') (m : Manager F) :
    (mm m).moveVector tk' = (fun r => (r.1, mm r.2)) <$> m.moveVector tk := by
  unfold Manager.moveVector
  rw [cs_moved, e.moveAll]
  simp only [map_bind, bind_map_left]
  refine bind_congr fun cs => ?_
  have h : (cs.map mc).map (fun c => c.vec) = (cs.map fun c => c.vec).map φ := by
    simp [codeCentroid, Function.comp_def]
  rw [h, e.vecMean]
  dsimp only
  split <;> rfl

theorem managerDistributeLoop (e : Recode g φ ψ tk tk') (rs : List Nat) : ∀ (l : List (Nat × Nat)) (h : List (Centroid F)),
    Manager.distributeLoop tk' rs l (h.map mc) = (List.map mc) <$> Manager.distributeLoop tk rs l h
  | [], h => by simp [Manager.distributeLoop]
  | (i, p) :: l, h => by
    unfold Manager.distributeLoop
    simp only [e.distribute, map_bind, bind_map_left, managerDistributeLoop e rs l]

theorem managerDistribute (e : Recode g φ ψ tk tk') (ord) (m : Manager F) (n : Int) (ext : List (Centroid F)) (rs : List Nat) :
    (mm m).distribute tk' ord n (ext.map mc) rs = (fun r => (mm r.1, r.2.map mc)) <$> m.distribute tk ord n ext rs := by
  unfold Manager.distribute
  split
  · simp
  · rw [e.portionEntries, cs_moved, ← List.map_append]
    simp only [e.managerDistributeLoop, map_bind, bind_map_left, List.length_map, ← List.map_take, set_moved, e.managerMove,
      map_pure, List.map_drop]

theorem managerInternal (e : Recode g φ ψ tk tk') (ord) (m : Manager F) (n : Int) :
    (mm m).distributeInternal tk' ord n = mm <$> m.distributeInternal tk ord n := by
  unfold Manager.distributeInternal
  have h := e.managerDistribute ord m n [] (List.range m.centroids.length)
  rw [List.map_nil] at h
  rw [cs_moved, List.length_map, h]
  simp only [map_bind, bind_map_left, map_pure]

theorem lookupTake (e : Recode g φ ψ tk tk') (k : Int) (drain : Bool) : ∀ (ds res : List (DataPoint F)) (c : Centroid F),
    Manager.lookupTake tk' k drain (ds.map md) (res.map md) (mc c) =
      (fun r => (r.1.map md, mc r.2)) <$> Manager.lookupTake tk k drain ds res c
  | [], res, c => by simp [Manager.lookupTake]
  | d :: ds, res, c => by
    rw [List.map_cons]
    unfold Manager.lookupTake
    rw [List.length_map]
    split
    · have h := lookupTake e k drain ds (res ++ [d]) c
      rw [List.map_append] at h
      exact h
    · split
      · simp only [e.addDataPoint, map_bind, bind_map_left, lookupTake e k drain ds]
      · exact lookupTake e k drain ds res c

theorem lookupLoop (e : Recode g φ ψ tk tk') (v : List F) (k : Int) (drain : Bool) :
    ∀ (is : List Nat) (m : Manager F) (res : List (DataPoint F)),
    Manager.lookupLoop tk' (φ v) k drain is (mm m) (res.map md) =
      (fun r => (r.1.map md, mm r.2)) <$> Manager.lookupLoop tk v k drain is m res
  | [], m, res => by simp [Manager.lookupLoop]
  | i :: is, m, res => by
    unfold Manager.lookupLoop
    rw [List.length_map]
    split
    · simp
    · rw [e.onCentroid (List.map md) m i (fun c => do
        let q ← c.knnLookup tk v (k - res.length) drain
        Manager.lookupTake tk k drain q.1 res q.2) _ fun c => by
          simp only [e.knnLookup, bind_map_left, map_bind, e.lookupTake]]
      simp only [map_bind, bind_map_left, lookupLoop e v k drain is]

theorem managerLookup (e : Recode g φ ψ tk tk') (m : Manager F) (v : List F) (k : Int) (drain : Bool) :
    (mm m).knnLookup tk' (φ v) k drain = (fun r => (r.1.map md, mm r.2)) <$> m.knnLookup tk v k drain := by
  unfold Manager.knnLookup
  rw [e.nearest]
  simp only [map_bind]
  refine bind_congr fun _ => bind_congr fun is => ?_
  exact e.lookupLoop v k drain is m []

theorem managerGetAll (e : Recode g φ ψ tk tk') : ∀ (is : List Nat) (m : Manager F), Manager.getAll is (mm m) = (List.map mc) <$> Manager.getAll is m
  | [], m => by simp [Manager.getAll]
  | i :: is, m => by
    unfold Manager.getAll
    simp only [cs_moved, Equi.idx_map, map_bind, bind_map_left, managerGetAll e is, map_pure, List.map_cons]

theorem deleteAt (e : Recode g φ ψ tk tk') (m : Manager F) (j : Nat) : (mm m).deleteAt j = mm <$> m.deleteAt j := by
  unfold Manager.deleteAt
  simp only [cs_moved, Equi.idx_map, map_bind, bind_map_left, map_pure]
  refine bind_congr fun c => ?_
  have h : (mm m).dropVec (mc c).vec = mm (m.dropVec c.vec) := e.dropVec _ _
  rw [h, cs_moved, Equi.eraseIdx_mapped, set_moved]

theorem deleteAll (e : Recode g φ ψ tk tk') : ∀ (is : List Nat) (m : Manager F), Manager.deleteAll is (mm m) = mm <$> Manager.deleteAll is m
  | [], m => by simp [Manager.deleteAll]
  | i :: is, m => by
    unfold Manager.deleteAll
    simp only [e.deleteAt, map_bind, bind_map_left, deleteAll e is]

theorem managerNearest (e : Recode g φ ψ tk tk') (m : Manager F) (v : List F) (n : Int) (drain : Bool) :
    (mm m).nearestCentroids (φ v) n drain = (fun r => (r.1.map (List.map mc), mm r.2)) <$> m.nearestCentroids v n drain := by
  unfold Manager.nearestCentroids
  rw [e.nearest]
  simp only [map_bind]
  refine bind_congr fun is => ?_
  split
  · simp
  · simp only [map_bind, e.managerGetAll, bind_map_left]
    refine bind_congr fun _ => bind_congr fun cs => ?_
    split
    · simp only [e.deleteAll, map_bind, bind_map_left, map_pure, Option.map_some]
    · simp

theorem splitLoop (e : Recode g φ ψ tk tk') (pred pred' : Centroid F → Bool) (hp : ∀ c, pred' (mc c) = pred c) :
    ∀ (is : List Nat) (m : Manager F) (acc : List (Centroid F)),
    Manager.splitLoop tk' pred' is (mm m) (acc.map mc) = (fun r => (r.1.map mc, mm r.2)) <$> Manager.splitLoop tk pred is m acc
  | [], m, acc => by simp [Manager.splitLoop]
  | i :: is, m, acc => by
    unfold Manager.splitLoop
    simp only [cs_moved, Equi.idx_map, map_bind, bind_map_left, hp, e.lenDP]
    refine bind_congr fun c => ?_
    split
    · exact splitLoop e pred pred' hp is m acc
    · simp only [e.splitCentroid, map_bind, bind_map_left]
      refine bind_congr fun r => ?_
      cases r.1 with
      | none => exact splitLoop e pred pred' hp is r.2 acc
      | some nc =>
        have h := splitLoop e pred pred' hp is r.2 (acc ++ [nc])
        rw [List.map_append] at h
        exact h

theorem managerSplit (e : Recode g φ ψ tk tk') (m : Manager F) (pred pred' : Centroid F → Bool) (hp : ∀ c, pred' (mc c) = pred c) :
    (mm m).splitCentroids tk' pred' = mm <$> m.splitCentroids tk pred := by
  unfold Manager.splitCentroids
  have h := e.splitLoop pred pred' hp (List.range m.centroids.length) m []
  rw [List.map_nil] at h
  rw [cs_moved, List.length_map, h]
  simp only [map_bind, bind_map_left, map_pure, cs_moved, ← List.map_append, set_moved]

theorem mergeInner (e : Recode g φ ψ tk tk') (pred pred' : Centroid F → Bool) (hp : ∀ c, pred' (mc c) = pred c) (i : Nat) :
    ∀ (js marks : List Nat) (cs : List (Centroid F)),
    Manager.mergeInner tk' pred' i js marks (cs.map mc) = (fun r => (r.1, r.2.map mc)) <$> Manager.mergeInner tk pred i js marks cs
  | [], marks, cs => by simp [Manager.mergeInner]
  | j :: js, marks, cs => by
    unfold Manager.mergeInner
    split
    · exact mergeInner e pred pred' hp i js marks cs
    · simp only [Equi.idx_map, map_bind, bind_map_left, e.lenDP, e.drainUnordered, ← List.map_set, e.addAll, hp]
      refine bind_congr fun c => bind_congr fun r => bind_congr fun c' => bind_congr fun c'' => ?_
      split
      · simp
      · exact mergeInner e pred pred' hp i js _ _

theorem mergeOuter (e : Recode g φ ψ tk tk') (pred pred' : Centroid F → Bool) (hp : ∀ c, pred' (mc c) = pred c) :
    ∀ (is marks : List Nat) (m : Manager F),
    Manager.mergeOuter tk' pred' is marks (mm m) = (fun r => (r.1, mm r.2)) <$> Manager.mergeOuter tk pred is marks m
  | [], marks, m => by simp [Manager.mergeOuter]
  | i :: is, marks, m => by
    unfold Manager.mergeOuter
    simp only [cs_moved, Equi.idx_map, map_bind, bind_map_left, hp, List.length_map]
    refine bind_congr fun c => ?_
    split
    · exact mergeOuter e pred pred' hp is marks m
    · have h : (mm m).knn (mc c).vec (mm m).centroidVecs m.centroids.length = m.knn c.vec m.centroidVecs m.centroids.length :=
        e.nearest m c.vec m.centroids.length
      rw [h]
      simp only [map_bind]
      refine bind_congr fun js => ?_
      simp only [e.mergeInner pred pred' hp, bind_map_left, Equi.idx_map, map_bind]
      refine bind_congr fun r => bind_congr fun c' => ?_
      have h2 : ({ mm m with centroids := r.2.map mc } : Manager F).updateVec (mc c).vec (mc c').vec =
          mm (({ m with centroids := r.2 } : Manager F).updateVec c.vec c'.vec) :=
        e.updateVec { m with centroids := r.2 } c.vec c'.vec
      rw [h2]
      exact mergeOuter e pred pred' hp is _ _

theorem managerMerge (e : Recode g φ ψ tk tk') (m : Manager F) (pred pred' : Centroid F → Bool) (hp : ∀ c, pred' (mc c) = pred c) :
    (mm m).mergeCentroids tk' pred' = mm <$> m.mergeCentroids tk pred := by
  unfold Manager.mergeCentroids
  rw [cs_moved, List.length_map, e.mergeOuter pred pred' hp]
  simp only [map_bind, bind_map_left, e.deleteAll]


end Recode
end Trypo
