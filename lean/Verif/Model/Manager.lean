import Verif.Model.Centroid

/-!
# pkg/kmeans/centroidmanager/cmanager.go

Conventions: `cm.Centroids` is a slice of pointers that are owned by the manager, so it is a list of centroids, and a
pointer obtained from it is an index. Predicates passed by the caller are pure functions of the centroid
(simplification: closures with state of their own are not modelled). The order in which Go iterates over a map is a
parameter `ord`, applied to the list of keys; theorems quantify over all `ord` that only permute.
-/

namespace Trypo
open GoFloat

variable {F : Type} [GoFloat F]

/-- pkg/kmeans/centroidmanager/cmanager.go:27-50 `CentroidManager`. -/
structure Manager (F : Type) where
  vec : List F
  initCap : Int
  centroids : List (Centroid F)
  threshold : Int
  knn : Search F
  kfn : Search F

namespace Manager

/-- pkg/kmeans/centroidmanager/cmanager.go:85-102 `NewCentroidManager`; the failure return is `none`. A negative
`InitCap` panics in `make` (line 92). -/
def new (initVec : List F) (initCap threshold : Int) (knn kfn : Option (Search F)) : Go (Option (Manager F)) :=
  match knn, kfn with
  | some knn, some kfn => do
    Go.checkMake initCap
    pure (some { vec := initVec, initCap := initCap, centroids := [], threshold := threshold, knn := knn, kfn := kfn })
  | _, _ => pure none

/-- pkg/kmeans/centroidmanager/cmanager.go:104-119 `newCentroid`. -/
def newCentroid (cm : Manager F) (vec : List F) : Go (Centroid F) := do
  match (← Centroid.new vec cm.initCap (some cm.knn) (some cm.kfn)) with
  | some c => pure c
  | none => Go.panic .user

/-- One pass of the inner loop of `centroidDataPointPortions`, pkg/kmeans/centroidmanager/cmanager.go:135-147: over the
centroid sizes and the portions so far (0 for an absent key). Returns the new portions, the new `assigned`, and whether
the function returned inside the loop (line 145). -/
def portionsPass (n : Int) : List Nat → List Nat → Int → List Nat × Int × Bool
  | size :: sizes, v :: vs, assigned =>
    let v' := if v + 1 ≤ size then v + 1 else v
    let assigned' := if v + 1 ≤ size then assigned + 1 else assigned
    if n ≤ assigned' then (v' :: vs, assigned', true)
    else
      let r := portionsPass n sizes vs assigned'
      (v' :: r.1, r.2)
  | _, vs, assigned => (vs, assigned, false)

/-- The outer loop, pkg/kmeans/centroidmanager/cmanager.go:132-152. Every pass but the last assigns something, so the
total size plus one is enough fuel. -/
def portionsLoop (n : Int) (sizes : List Nat) : Nat → List Nat → Int → List Nat
  | 0, portions, _ => portions
  | fuel + 1, portions, assigned =>
    let r := portionsPass n sizes portions assigned
    if r.2.2 then r.1
    else if assigned = r.2.1 then r.1
    else portionsLoop n sizes fuel r.1 r.2.1

/-- pkg/kmeans/centroidmanager/cmanager.go:128-155 `centroidDataPointPortions`: the portion of every centroid, 0 for
centroids that are not keys of the returned map. -/
def portions (sizes : List Nat) (n : Int) : List Nat :=
  portionsLoop n sizes (sizes.sum + 1) (sizes.map (fun _ => 0)) 0

/-- The keys of the map returned by `centroidDataPointPortions` with their values, in index order. -/
def portionEntries (cm : Manager F) (n : Int) : List (Nat × Nat) :=
  ((portions (cm.centroids.map (fun c => c.lenDP)) n).zipIdx.filter (fun q => q.1 ≠ 0)).map (fun q => (q.2, q.1))

/-- pkg/kmeans/centroidmanager/cmanager.go:159-168 `centroidVecGenerator`: everything it yields. -/
def centroidVecs (cm : Manager F) : List (List F) := cm.centroids.map (fun c => c.vec)

/-- The closure made by pkg/kmeans/centroidmanager/cmanager.go:209-219 `prepVecUpdate` for the vector `old`, called with
`new`. -/
def updateVec (cm : Manager F) (old new : List F) : Manager F :=
  let cmLen := ofNat cm.centroids.length
  let v1 := vecMulScalar cm.vec cmLen
  let v2 := (vecSub v1 old).1
  let v3 := (vecAdd v2 new).1
  { cm with vec := vecDivScalar v3 cmLen }

/-- Run `f` on the centroid at index `i`, between `prepVecUpdate` and the call of its result: the pattern of
pkg/kmeans/centroidmanager/cmanager.go:282-287, 305-310, 321-324, 348-351, 433-454. -/
def onCentroid {α : Type} (cm : Manager F) (i : Nat) (f : Centroid F → Go (α × Centroid F)) : Go (α × Manager F) := do
  let c ← Go.idx cm.centroids i
  let r ← f c
  pure (r.1, { cm with centroids := cm.centroids.set i r.2 }.updateVec c.vec r.2.vec)

/-- Adding a list of datapoints one by one, ignoring the answers: pkg/kmeans/centroidmanager/cmanager.go:184-186,
557-559. -/
def addAll (tk : Nat → Int) : List (DataPoint F) → Centroid F → Go (Centroid F)
  | [], c => pure c
  | d :: ds, c => do
    let r ← c.addDataPoint tk d
    addAll tk ds r.2

/-- pkg/kmeans/centroidmanager/cmanager.go:173-188 `splitCentroid`: the new centroid (`none` for the failure return) and
the manager with the old centroid drained. -/
def splitCentroid (tk : Nat → Int) (cm : Manager F) (atIndex : Nat) (trimN : Int) :
    Go (Option (Centroid F) × Manager F) :=
  match cm.centroids[atIndex]? with
  | none => pure (none, cm)
  | some old =>
    if trimN ≤ 0 then pure (none, cm)
    else do
      let nc ← cm.newCentroid old.vec
      let r ← old.drainUnordered tk trimN
      let nc' ← addAll tk r.1 nc
      pure (some nc', { cm with centroids := cm.centroids.set atIndex r.2 })

/-- pkg/kmeans/centroidmanager/cmanager.go:234-272 `AddDataPoint`. -/
def addDataPoint (tk : Nat → Int) (cm : Manager F) (dp : DataPoint F) : Go (Bool × Manager F) := do
  if (← dp.expired tk) then pure (false, cm)
  else if cm.centroids.length = 0 then do
    let c ← cm.newCentroid dp.vec
    let r ← c.addDataPoint tk dp
    pure (true, { cm with centroids := cm.centroids ++ [r.2], vec := r.2.vec })
  else do
    let indexes ← Go.lift (cm.knn dp.vec cm.centroidVecs 1)
    match indexes with
    | [] => pure (false, cm)
    | j :: _ => do
      let c ← Go.idx cm.centroids j
      let r ← c.addDataPoint tk dp
      if !r.1 then pure (false, { cm with centroids := cm.centroids.set j r.2 })
      else do
        let cm1 := { cm with centroids := cm.centroids.set j r.2 }.updateVec c.vec r.2.vec
        if cm1.threshold ≤ (r.2.lenDP : Int) then do
          let s ← cm1.splitCentroid tk j (cm1.threshold.tdiv 2)
          match s.1 with
          | some nc => pure (true, { s.2 with centroids := s.2.centroids ++ [nc] })
          | none => pure (true, s.2)
        else pure (true, cm1)

/-- The loop of `DrainUnordered` and `DrainOrdered`, pkg/kmeans/centroidmanager/cmanager.go:281-289, 304-311; `f` is the
method of the same name of the centroid. -/
def drainLoop (f : Centroid F → Int → Go (List (DataPoint F) × Centroid F)) :
    List (Nat × Nat) → Manager F → List (DataPoint F) → Go (List (DataPoint F) × Manager F)
  | [], cm, res => pure (res, cm)
  | (i, portion) :: rest, cm, res => do
    let r ← cm.onCentroid i (fun c => f c portion)
    drainLoop f rest r.2 (res ++ r.1)

/-- pkg/kmeans/centroidmanager/cmanager.go:279-291 `DrainUnordered`. -/
def drainUnordered (tk : Nat → Int) (ord : List (Nat × Nat) → List (Nat × Nat)) (cm : Manager F) (n : Int) :
    Go (List (DataPoint F) × Manager F) := do
  Go.checkMake n
  drainLoop (fun c k => c.drainUnordered tk k) (ord (cm.portionEntries n)) cm []

/-- pkg/kmeans/centroidmanager/cmanager.go:302-313 `DrainOrdered`. -/
def drainOrdered (tk : Nat → Int) (ord : List (Nat × Nat) → List (Nat × Nat)) (cm : Manager F) (n : Int) :
    Go (List (DataPoint F) × Manager F) := do
  Go.checkMake n
  drainLoop (fun c k => c.drainOrdered tk k) (ord (cm.portionEntries n)) cm []

/-- The loop of `Expire` over the remaining indexes, pkg/kmeans/centroidmanager/cmanager.go:319-325. -/
def expireLoop (tk : Nat → Int) : List Nat → Manager F → Go (Manager F)
  | [], cm => pure cm
  | i :: is, cm => do
    let r ← cm.onCentroid i (fun c => do let c' ← c.expire tk; pure ((), c'))
    expireLoop tk is r.2

/-- pkg/kmeans/centroidmanager/cmanager.go:318-326 `Expire`. -/
def expire (tk : Nat → Int) (cm : Manager F) : Go (Manager F) :=
  expireLoop tk (List.range cm.centroids.length) cm

/-- pkg/kmeans/centroidmanager/cmanager.go:331-337 `LenDP`. -/
def lenDP (cm : Manager F) : Nat := (cm.centroids.map (fun c => c.lenDP)).sum

/-- The vector adjustment for a deleted centroid with vector `v`, pkg/kmeans/centroidmanager/cmanager.go:360-362,
485-487, 577-579. For one remaining centroid the divisor is `float64(0)`. -/
def dropVec (cm : Manager F) (v : List F) : Manager F :=
  let v1 := vecMulScalar cm.vec (ofNat cm.centroids.length)
  let v2 := (vecSub v1 v).1
  { cm with vec := vecDivScalar v2 (ofNat (cm.centroids.length - 1)) }

/-- The loop of `MemTrim` over the remaining indexes, pkg/kmeans/centroidmanager/cmanager.go:346-364; `acc` is the local
`centroids`. -/
def memTrimLoop (tk : Nat → Int) : List Nat → Manager F → List (Centroid F) → Go (List (Centroid F) × Manager F)
  | [], cm, acc => pure (acc, cm)
  | i :: is, cm, acc => do
    let r ← cm.onCentroid i (fun c => do let c' ← c.memTrim tk; pure (c', c'))
    let acc' := if r.1.lenDP ≠ 0 then acc ++ [r.1] else acc
    if r.1.lenDP = 1 ∧ 1 < r.2.centroids.length then memTrimLoop tk is (r.2.dropVec r.1.vec) acc'
    else memTrimLoop tk is r.2 acc'

/-- pkg/kmeans/centroidmanager/cmanager.go:344-366 `MemTrim`. -/
def memTrim (tk : Nat → Int) (cm : Manager F) : Go (Manager F) := do
  let r ← memTrimLoop tk (List.range cm.centroids.length) cm []
  pure { r.2 with centroids := r.1 }

/-- The loop of `MoveVector` over the centroids, pkg/kmeans/centroidmanager/cmanager.go:373-375. -/
def moveAll (tk : Nat → Int) : List (Centroid F) → Go (List (Centroid F))
  | [] => pure []
  | c :: cs => do
    let r ← c.moveVector tk
    let rs ← moveAll tk cs
    pure (r.2 :: rs)

/-- pkg/kmeans/centroidmanager/cmanager.go:372-382 `MoveVector`. -/
def moveVector (tk : Nat → Int) (cm : Manager F) : Go (Bool × Manager F) := do
  let cs ← moveAll tk cm.centroids
  let m := vecMean (cs.map (fun c => c.vec))
  if m.2 then pure (true, { cm with centroids := cs, vec := m.1 }) else pure (false, { cm with centroids := cs })

/-- The loop of `DistributeDataPoints`, pkg/kmeans/centroidmanager/cmanager.go:397-399, on the heap `h` of all centroids
involved. -/
def distributeLoop (tk : Nat → Int) (receivers : List Nat) : List (Nat × Nat) → List (Centroid F) → Go (List (Centroid F))
  | [], h => pure h
  | (i, portion) :: rest, h => do
    let h' ← Centroid.distribute tk h i portion receivers
    distributeLoop tk receivers rest h'

/-- pkg/kmeans/centroidmanager/cmanager.go:392-404 `DistributeDataPoints`. The receivers are positions in the heap made
of the manager's own centroids followed by the foreign centroids `ext`; the resulting foreign centroids are returned.
Receivers that are managers are in `Model/Receivers.lean`. -/
def distribute (tk : Nat → Int) (ord : List (Nat × Nat) → List (Nat × Nat)) (cm : Manager F) (n : Int)
    (ext : List (Centroid F)) (receivers : List Nat) : Go (Manager F × List (Centroid F)) :=
  if receivers.length = 0 then pure (cm, ext)
  else do
    let h ← distributeLoop tk receivers (ord (cm.portionEntries n)) (cm.centroids ++ ext)
    let cm' := { cm with centroids := h.take cm.centroids.length }
    let r ← cm'.moveVector tk
    pure (r.2, h.drop cm.centroids.length)

/-- pkg/kmeans/centroidmanager/cmanager.go:409-415 `DistributeDataPointsInternal`. -/
def distributeInternal (tk : Nat → Int) (ord : List (Nat × Nat) → List (Nat × Nat)) (cm : Manager F) (n : Int) :
    Go (Manager F) := do
  let r ← cm.distribute tk ord n [] (List.range cm.centroids.length)
  pure r.1

/-- The inner loop of `KNNLookup`, pkg/kmeans/centroidmanager/cmanager.go:436-452, over the datapoints a centroid
returned. The `break` on line 450 only leaves the `switch`. -/
def lookupTake (tk : Nat → Int) (k : Int) (drain : Bool) :
    List (DataPoint F) → List (DataPoint F) → Centroid F → Go (List (DataPoint F) × Centroid F)
  | [], res, c => pure (res, c)
  | dp :: dps, res, c =>
    if (res.length : Int) < k then lookupTake tk k drain dps (res ++ [dp]) c
    else if drain then do
      let r ← c.addDataPoint tk dp
      lookupTake tk k drain dps res r.2
    else lookupTake tk k drain dps res c

/-- The outer loop of `KNNLookup`, pkg/kmeans/centroidmanager/cmanager.go:428-455. -/
def lookupLoop (tk : Nat → Int) (v : List F) (k : Int) (drain : Bool) :
    List Nat → Manager F → List (DataPoint F) → Go (List (DataPoint F) × Manager F)
  | [], cm, res => pure (res, cm)
  | i :: is, cm, res =>
    if k ≤ (res.length : Int) then pure (res, cm)
    else do
      let r ← cm.onCentroid i (fun c => do
        let q ← c.knnLookup tk v (k - res.length) drain
        lookupTake tk k drain q.1 res q.2)
      lookupLoop tk v k drain is r.2 r.1

/-- pkg/kmeans/centroidmanager/cmanager.go:424-457 `KNNLookup`. -/
def knnLookup (tk : Nat → Int) (cm : Manager F) (v : List F) (k : Int) (drain : Bool) :
    Go (List (DataPoint F) × Manager F) := do
  Go.checkMake k
  let indexes ← Go.lift (cm.knn v cm.centroidVecs k)
  lookupLoop tk v k drain indexes cm []

/-- Reading `cm.Centroids[index]` for all indexes, pkg/kmeans/centroidmanager/cmanager.go:476-478. -/
def getAll : List Nat → Manager F → Go (List (Centroid F))
  | [], _ => pure []
  | i :: is, cm => do
    let c ← Go.idx cm.centroids i
    let cs ← getAll is cm
    pure (c :: cs)

/-- Deleting the centroid at index `j` with the vector adjustment, pkg/kmeans/centroidmanager/cmanager.go:484-490,
574-582. -/
def deleteAt (cm : Manager F) (j : Nat) : Go (Manager F) := do
  let c ← Go.idx cm.centroids j
  let cm' := cm.dropVec c.vec
  pure { cm' with centroids := cm'.centroids.eraseIdx j }

/-- Deleting the centroids at the given indexes in list order. -/
def deleteAll : List Nat → Manager F → Go (Manager F)
  | [], cm => pure cm
  | j :: js, cm => do
    let cm' ← cm.deleteAt j
    deleteAll js cm'

/-- pkg/kmeans/centroidmanager/cmanager.go:468-494 `NearestCentroids`. The failure return is `none`. With `drain=false`
the code returns pointers to centroids the manager keeps; they are returned as values here. -/
def nearestCentroids (cm : Manager F) (v : List F) (n : Int) (drain : Bool) :
    Go (Option (List (Centroid F)) × Manager F) := do
  let indexes ← Go.lift (cm.knn v cm.centroidVecs n)
  if indexes.length = 0 then pure (none, cm)
  else do
    Go.checkMake n
    let cs ← getAll indexes cm
    if drain then do
      let cm' ← deleteAll (Centroid.sortInts indexes).reverse cm
      pure (some cs, cm')
    else pure (some cs, cm)

/-- The loop of `SplitCentroids` over the remaining indexes, pkg/kmeans/centroidmanager/cmanager.go:504-513; `acc` is
`newCentroids`. -/
def splitLoop (tk : Nat → Int) (split : Centroid F → Bool) :
    List Nat → Manager F → List (Centroid F) → Go (List (Centroid F) × Manager F)
  | [], cm, acc => pure (acc, cm)
  | i :: is, cm, acc => do
    let c ← Go.idx cm.centroids i
    if !split c then splitLoop tk split is cm acc
    else do
      let r ← cm.splitCentroid tk i ((c.lenDP / 2 : Nat) : Int)
      match r.1 with
      | some nc => splitLoop tk split is r.2 (acc ++ [nc])
      | none => splitLoop tk split is r.2 acc

/-- pkg/kmeans/centroidmanager/cmanager.go:501-515 `SplitCentroids`. -/
def splitCentroids (tk : Nat → Int) (cm : Manager F) (split : Centroid F → Bool) : Go (Manager F) := do
  let r ← splitLoop tk split (List.range cm.centroids.length) cm []
  pure { r.2 with centroids := r.2.centroids ++ r.1 }

/-- The inner loop of `MergeCentroids`, pkg/kmeans/centroidmanager/cmanager.go:549-563: `i` is the candidate, `marks` the
keys of `delMarks`. Returns the new marks and the new centroids. -/
def mergeInner (tk : Nat → Int) (merge : Centroid F → Bool) (i : Nat) :
    List Nat → List Nat → List (Centroid F) → Go (List Nat × List (Centroid F))
  | [], marks, cs => pure (marks, cs)
  | j :: js, marks, cs =>
    if j = i ∨ j ∈ marks then mergeInner tk merge i js marks cs
    else do
      let other ← Go.idx cs j
      let r ← other.drainUnordered tk other.lenDP
      let cs1 := cs.set j r.2
      let cand ← Go.idx cs1 i
      let cand' ← addAll tk r.1 cand
      let cs2 := cs1.set i cand'
      if !merge cand' then pure (j :: marks, cs2)
      else mergeInner tk merge i js (j :: marks) cs2

/-- The outer loop of `MergeCentroids`, pkg/kmeans/centroidmanager/cmanager.go:536-566, over the remaining indexes. -/
def mergeOuter (tk : Nat → Int) (merge : Centroid F → Bool) :
    List Nat → List Nat → Manager F → Go (List Nat × Manager F)
  | [], marks, cm => pure (marks, cm)
  | i :: is, marks, cm => do
    let cand ← Go.idx cm.centroids i
    if !merge cand || decide (i ∈ marks) then mergeOuter tk merge is marks cm
    else do
      let indexes ← Go.lift (cm.knn cand.vec cm.centroidVecs cm.centroids.length)
      let r ← mergeInner tk merge i indexes marks cm.centroids
      let cand' ← Go.idx r.2 i
      mergeOuter tk merge is r.1 ({ cm with centroids := r.2 }.updateVec cand.vec cand'.vec)

/-- pkg/kmeans/centroidmanager/cmanager.go:532-585 `MergeCentroids`. -/
def mergeCentroids (tk : Nat → Int) (cm : Manager F) (merge : Centroid F → Bool) : Go (Manager F) := do
  let r ← mergeOuter tk merge (List.range cm.centroids.length) [] cm
  deleteAll ((List.range cm.centroids.length).reverse.filter (· ∈ r.1)) r.2

end Manager
end Trypo
