import Verif.Model.DataPoint
import Verif.Model.KNN

/-!
# pkg/kmeans/centroid/centroid.go
-/

namespace Trypo
open GoFloat

variable {F : Type} [GoFloat F]

/-- pkg/kmeans/centroid/centroid.go:21-26 `Centroid`. -/
structure Centroid (F : Type) where
  vec : List F
  dps : List (DataPoint F)
  knn : Search F
  kfn : Search F

namespace Centroid

/-- pkg/kmeans/centroid/centroid.go:59-74 `NewCentroid`. A nil search function is `none`; the failure return
`(Centroid{}, false)` is `none`. A negative `InitCap` panics in `make` (line 66). -/
def new (initVec : List F) (initCap : Int) (knn kfn : Option (Search F)) : Go (Option (Centroid F)) :=
  match knn, kfn with
  | some knn, some kfn => do
    Go.checkMake initCap
    pure (some { vec := initVec, dps := [], knn := knn, kfn := kfn })
  | _, _ => pure none

/-- pkg/kmeans/centroid/centroid.go:80-87 `addDataPoint`. -/
def addRaw (c : Centroid F) (dp : DataPoint F) : Centroid F :=
  let v1 := vecMulScalar c.vec (ofNat c.dps.length)
  let v2 := (vecAdd v1 dp.vec).1
  let v3 := vecDivScalar v2 (add (ofNat c.dps.length) (ofNat 1))
  { c with vec := v3, dps := c.dps ++ [dp] }

/-- pkg/kmeans/centroid/centroid.go:91-97 `AddDataPoint`. Returns the answer and the new state. -/
def addDataPoint (tk : Nat → Int) (c : Centroid F) (dp : DataPoint F) : Go (Bool × Centroid F) :=
  if dp.vec.length ≠ c.vec.length then pure (false, c)
  else do
    let e ← dp.expired tk
    if e then pure (false, c) else pure (true, c.addRaw dp)

/-- pkg/kmeans/centroid/centroid.go:102-112 `rmDataPoint`; the reslicing on line 111 panics when the index is out of
range. -/
def rm (c : Centroid F) (index : Nat) : Go (Centroid F) :=
  match c.dps[index]? with
  | none => Go.panic .index
  | some dp =>
    let v := if 1 < c.dps.length then
        let v1 := vecMulScalar c.vec (ofNat c.dps.length)
        let v2 := (vecSub v1 dp.vec).1
        vecDivScalar v2 (ofNat (c.dps.length - 1))
      else c.vec
    pure { c with vec := v, dps := c.dps.eraseIdx index }

/-- The skipping loop of the generator, pkg/kmeans/centroid/centroid.go:120-122. The fuel bounds the number of
iterations; each iteration removes a datapoint, so `c.dps.length` is enough. -/
def skipExpired (tk : Nat → Int) (i : Nat) : Nat → Centroid F → Go (Centroid F)
  | 0, c => pure c
  | fuel + 1, c =>
    match c.dps[i]? with
    | none => pure c
    | some d => do
      let e ← d.expired tk
      if e then do
        let c' ← c.rm i
        skipExpired tk i fuel c'
      else pure c

/-- One call of the generator made by pkg/kmeans/centroid/centroid.go:116-129 `dataPointVecGenerator`, with its
position `i`: the vector yielded (`none` signals stop), the centroid and the new position. -/
def genNext (tk : Nat → Int) (c : Centroid F) (i : Nat) : Go (Option (List F) × Centroid F × Nat) := do
  let c' ← skipExpired tk i c.dps.length c
  match c'.dps[i]? with
  | none => pure (none, c', i)
  | some d => pure (some d.vec, c', i + 1)

/-- Pull the generator to its end (what a search function does): all vectors yielded and the resulting centroid.
The fuel bounds the number of calls. -/
def genAll (tk : Nat → Int) : Nat → Centroid F → Nat → Go (List (List F) × Centroid F)
  | 0, c, _ => pure ([], c)
  | fuel + 1, c, i => do
    let r ← genNext tk c i
    match r.1 with
    | none => pure ([], r.2.1)
    | some v => do
      let q ← genAll tk fuel r.2.1 r.2.2
      pure (v :: q.1, q.2)

/-- The loop of `DrainUnordered`, pkg/kmeans/centroid/centroid.go:135-140. Each iteration removes a datapoint, so
`c.dps.length` is enough fuel. -/
def drainUnorderedLoop (tk : Nat → Int) (n : Nat) : Nat → Centroid F → List (DataPoint F) →
    Go (List (DataPoint F) × Centroid F)
  | 0, c, res => pure (res, c)
  | fuel + 1, c, res =>
    match c.dps with
    | [] => pure (res, c)
    | d :: _ =>
      if res.length < n then do
        let e ← d.expired tk
        let c' ← c.rm 0
        drainUnorderedLoop tk n fuel c' (if e then res else res ++ [d])
      else pure (res, c)

/-- pkg/kmeans/centroid/centroid.go:133-142 `DrainUnordered`. Returns the drained datapoints and the new state. -/
def drainUnordered (tk : Nat → Int) (c : Centroid F) (n : Int) : Go (List (DataPoint F) × Centroid F) := do
  Go.checkMake n
  drainUnorderedLoop tk n.toNat c.dps.length c []

/-- Insertion into a sorted list, for `sortInts`. -/
def insertInt (a : Nat) : List Nat → List Nat
  | [] => [a]
  | b :: l => if a ≤ b then a :: b :: l else b :: insertInt a l

/-- `sort.Ints` (all correct sorting algorithms on ints agree). -/
def sortInts : List Nat → List Nat
  | [] => []
  | a :: l => insertInt a (sortInts l)

/-- Removal of the datapoints at the given indexes, one after the other in list order. -/
def rmAll : List Nat → Centroid F → Go (Centroid F)
  | [], c => pure c
  | i :: is, c => do
    let c' ← c.rm i
    rmAll is c'

/-- Reading `c.DataPoints[index]` for all indexes, pkg/kmeans/centroid/centroid.go:154-156, 249-251. -/
def getAll : List Nat → Centroid F → Go (List (DataPoint F))
  | [], _ => pure []
  | i :: is, c => do
    let d ← Go.idx c.dps i
    let ds ← getAll is c
    pure (d :: ds)

/-- pkg/kmeans/centroid/centroid.go:150-164 `DrainOrdered`. The target vector is read before the generator runs
(line 153); removal goes through the sorted indexes backwards (lines 159-162). -/
def drainOrdered (tk : Nat → Int) (c : Centroid F) (n : Int) : Go (List (DataPoint F) × Centroid F) := do
  Go.checkMake n
  let g ← genAll tk (c.dps.length + 1) c 0
  let indexes ← Go.lift (c.kfn c.vec g.1 n)
  let res ← getAll indexes g.2
  let c' ← rmAll (sortInts indexes).reverse g.2
  pure (res, c')

/-- The loop of `Expire`, pkg/kmeans/centroid/centroid.go:171-177. Each iteration removes a datapoint or advances `i`,
so `c.dps.length` is enough fuel. -/
def expireLoop (tk : Nat → Int) : Nat → Nat → Centroid F → Go (Centroid F)
  | 0, _, c => pure c
  | fuel + 1, i, c =>
    match c.dps[i]? with
    | none => pure c
    | some d => do
      let e ← d.expired tk
      if e then do
        let c' ← c.rm i
        expireLoop tk fuel i c'
      else expireLoop tk fuel (i + 1) c

/-- pkg/kmeans/centroid/centroid.go:169-178 `Expire`. -/
def expire (tk : Nat → Int) (c : Centroid F) : Go (Centroid F) := expireLoop tk c.dps.length 0 c

/-- pkg/kmeans/centroid/centroid.go:181 `LenDP`. -/
def lenDP (c : Centroid F) : Nat := c.dps.length

/-- The loop of `MemTrim`, pkg/kmeans/centroid/centroid.go:190-192; `acc` is the local `dps`. `DrainUnordered(1)` on a
non-empty centroid removes at least one datapoint, so `c.dps.length` is enough fuel. -/
def memTrimLoop (tk : Nat → Int) : Nat → Centroid F → List (DataPoint F) → Go (List (DataPoint F) × Centroid F)
  | 0, c, acc => pure (acc, c)
  | fuel + 1, c, acc =>
    if 0 < c.dps.length then do
      let r ← c.drainUnordered tk 1
      memTrimLoop tk fuel r.2 (acc ++ r.1)
    else pure (acc, c)

/-- pkg/kmeans/centroid/centroid.go:184-194 `MemTrim`. Slice capacities are not modelled. -/
def memTrim (tk : Nat → Int) (c : Centroid F) : Go (Centroid F) := do
  let r ← memTrimLoop tk c.dps.length c []
  pure { r.2 with dps := r.1 }

/-- The loop of `VecMean` (pkg/mathutils/vectools.go:14-27) run on the generator of a centroid: running sum, running
count, centroid and generator position. The fuel bounds the number of generator calls. -/
def meanLoop (tk : Nat → Int) : Nat → List F → F → Centroid F → Nat → Go ((List F × Bool) × Centroid F)
  | 0, res, n, c, _ => pure ((res.map (fun x => div x n), true), c)
  | fuel + 1, res, n, c, i => do
    let r ← genNext tk c i
    match r.1 with
    | none => pure ((res.map (fun x => div x n), true), r.2.1)
    | some v =>
      if v.length ≠ res.length then pure ((res, false), r.2.1)
      else meanLoop tk fuel (List.zipWith add res v) (add n (ofNat 1)) r.2.1 r.2.2

/-- pkg/kmeans/centroid/centroid.go:201-207 `MoveVector`, with `VecMean` pulling the generator step by step (it stops
early at a vector of another length). -/
def moveVector (tk : Nat → Int) (c : Centroid F) : Go (Bool × Centroid F) := do
  let r ← genNext tk c 0
  match r.1 with
  | none => pure (false, r.2.1)
  | some v => do
    let q ← meanLoop tk (r.2.1.dps.length + 1) v (ofNat 1) r.2.1 r.2.2
    if q.1.2 then pure (true, { q.2 with vec := q.1.1 }) else pure (false, q.2)

/-- pkg/kmeans/centroid/centroid.go:245-263 `KNNLookup`. -/
def knnLookup (tk : Nat → Int) (c : Centroid F) (v : List F) (k : Int) (drain : Bool) :
    Go (List (DataPoint F) × Centroid F) := do
  Go.checkMake k
  let g ← genAll tk (c.dps.length + 1) c 0
  let indexes ← Go.lift (c.knn v g.1 k)
  let res ← getAll indexes g.2
  if drain then do
    let c' ← rmAll (sortInts indexes).reverse g.2
    pure (res, c')
  else pure (res, g.2)

/-- The vectors the receiver generator yields, pkg/kmeans/centroid/centroid.go:222-228. Receivers are positions in a
heap of centroids, so receivers may coincide with each other and with the distributing centroid. -/
def receiverVecs (h : List (Centroid F)) (receivers : List Nat) : List (List F) :=
  receivers.map (fun r => match h[r]? with | some c => c.vec | none => [])

/-- The distribution loop, pkg/kmeans/centroid/centroid.go:230-237; `self` is the heap position of the distributing
centroid. -/
def distributeLoop (tk : Nat → Int) (self : Nat) (receivers : List Nat) :
    List (DataPoint F) → List (Centroid F) → Go (List (Centroid F))
  | [], h => pure h
  | d :: ds, h => do
    let c ← Go.idx h self
    let indexes ← Go.lift (c.knn d.vec (receiverVecs h receivers) 1)
    match indexes with
    | [] => do
      let r ← c.addDataPoint tk d
      distributeLoop tk self receivers ds (h.set self r.2)
    | j :: _ => do
      let rj ← Go.idx receivers j
      let rc ← Go.idx h rj
      let a ← rc.addDataPoint tk d
      let h1 := h.set rj a.2
      if a.1 then distributeLoop tk self receivers ds h1
      else do
        let c1 ← Go.idx h1 self
        let b ← c1.addDataPoint tk d
        distributeLoop tk self receivers ds (h1.set self b.2)

/-- pkg/kmeans/centroid/centroid.go:214-238 `DistributeDataPoints`, on a heap of centroids.
Receivers that are managers (the other implementation of the interface pkg/kmeans/common/datapoint.go:20-23) are in
`Model/Receivers.lean`. -/
def distribute (tk : Nat → Int) (h : List (Centroid F)) (self : Nat) (n : Int) (receivers : List Nat) :
    Go (List (Centroid F)) :=
  if receivers.length = 0 then pure h
  else do
    let c ← Go.idx h self
    let r ← c.drainOrdered tk n
    distributeLoop tk self receivers r.1 (h.set self r.2)

end Centroid
end Trypo
