import Verif.Model.Centroid

/-!
# Slices of datapoints: backing arrays, aliasing, capacity

`Model/Centroid.lean` treats `[]common.DataPoint` as a list. Here the same code of pkg/kmeans/centroid/centroid.go is
written down once more on Go's slices: a slice is a window into a backing array, reslicing shares the array, and
`append` writes into the array when the capacity allows it. `Props/Slice.lean` shows that the lists are right.

Simplifications. Arrays are never reclaimed. The vectors inside datapoints and centroids are values here: the code
replaces them and writes into none of them after it was created (pkg/mathutils/vectools.go makes a new one in
every function).
-/

namespace Trypo
open GoFloat

/-- The arrays of datapoints allocated so far; an array is known by its number. -/
abbrev Mem (F : Type) := List (List (DataPoint F))

/-- A slice of datapoints: array, first cell, length, capacity. -/
structure Slice where
  arr : Nat
  off : Nat
  len : Nat
  cap : Nat
  deriving DecidableEq, Repr

/-- A computation with a memory. -/
abbrev SGo (F : Type) (α : Type) : Type := StateT (Mem F) Go α

namespace SGo

variable {F : Type}

/-- A computation that does not use the memory. -/
def lift {α : Type} (x : Go α) : SGo F α := fun m p =>
  match x p with
  | .ok (a, p') => .ok ((a, m), p')
  | .error e => .error e

/-- The zero value of pkg/kmeans/common/datapoint.go:6-11 `DataPoint`; the instant 0 stands for `time.Time{}`. -/
def zero : DataPoint F := ⟨[], [], 0, false⟩

/-- The elements of a slice. -/
def view (m : Mem F) (s : Slice) : List (DataPoint F) := (((m[s.arr]?).getD []).drop s.off).take s.len

/-- The cells of a slice behind its elements. -/
def spare (m : Mem F) (s : Slice) : List (DataPoint F) := ((((m[s.arr]?).getD []).drop s.off).take s.cap).drop s.len

/-- `make([]common.DataPoint, 0, n)`. -/
def make (n : Nat) : SGo F Slice := fun m p => .ok ((⟨m.length, 0, 0, n⟩, m ++ [List.replicate n zero]), p)

/-- `s[i]`. -/
def read (s : Slice) (i : Nat) : SGo F (DataPoint F) := fun m p =>
  match (view m s)[i]? with
  | some d => .ok ((d, m), p)
  | none => .error .index

/-- All elements, as the operand `s...` of `append`. -/
def load (s : Slice) : SGo F (List (DataPoint F)) := fun m p => .ok ((view m s, m), p)

/-- `s[:i]`; it may go beyond the length. -/
def sliceTo (s : Slice) (i : Nat) : SGo F Slice :=
  if i ≤ s.cap then pure { s with len := i } else lift (Go.panic .index)

/-- `s[i:]`. -/
def sliceFrom (s : Slice) (i : Nat) : SGo F Slice :=
  if i ≤ s.len then pure ⟨s.arr, s.off + i, s.len - i, s.cap - i⟩ else lift (Go.panic .index)

/-- Overwrite cells of an array. -/
def writeAt (a : List (DataPoint F)) (i : Nat) (xs : List (DataPoint F)) : List (DataPoint F) :=
  a.take i ++ xs ++ a.drop (i + xs.length)

/-- `append(s, xs...)`: in place if the capacity suffices; otherwise into a new array, whose capacity `grow` chooses
from the old one and the length needed. The elements `xs` have been read before (Go's `append` allows overlap). -/
def append (grow : Nat → Nat → Nat) (s : Slice) (xs : List (DataPoint F)) : SGo F Slice := fun m p =>
  let need := s.len + xs.length
  if need ≤ s.cap then
    .ok (({ s with len := need }, m.set s.arr (writeAt ((m[s.arr]?).getD []) (s.off + s.len) xs)), p)
  else
    let cap := max need (grow s.cap need)
    .ok ((⟨m.length, 0, need, cap⟩, m ++ [view m s ++ xs ++ List.replicate (cap - need) zero]), p)

end SGo

/-- Go's choice of a new capacity in `append` (runtime/slice.go `nextslicecap`, since Go 1.18), before rounding up to a
size class: the needed length if it is more than double, else double up to 256, else by a quarter and 192. (For the
`append`s of one element in this code, one step of the loop there is enough.) -/
def goGrow (cap need : Nat) : Nat :=
  if 2 * cap < need then need else if cap < 256 then 2 * cap else cap + (cap + 768) / 4

/-- pkg/kmeans/centroid/centroid.go:21-26 `Centroid`. -/
structure SCentroid (F : Type) where
  vec : List F
  dps : Slice
  knn : Search F
  kfn : Search F

namespace SCentroid
open SGo

variable {F : Type} [GoFloat F]

/-- pkg/kmeans/centroid/centroid.go:59-74 `NewCentroid`. -/
def new (initVec : List F) (initCap : Int) (knn kfn : Option (Search F)) : SGo F (Option (SCentroid F)) :=
  match knn, kfn with
  | some knn, some kfn => do
    lift (Go.checkMake initCap)
    let s ← make initCap.toNat
    pure (some { vec := initVec, dps := s, knn := knn, kfn := kfn })
  | _, _ => pure none

/-- pkg/kmeans/centroid/centroid.go:80-87 `addDataPoint`. -/
def addRaw (grow : Nat → Nat → Nat) (c : SCentroid F) (dp : DataPoint F) : SGo F (SCentroid F) := do
  let v1 := vecMulScalar c.vec (ofNat c.dps.len)
  let v2 := (vecAdd v1 dp.vec).1
  let v3 := vecDivScalar v2 (add (ofNat c.dps.len) (ofNat 1))
  let s ← append grow c.dps [dp]
  pure { c with vec := v3, dps := s }

/-- pkg/kmeans/centroid/centroid.go:91-97 `AddDataPoint`. -/
def addDataPoint (grow : Nat → Nat → Nat) (tk : Nat → Int) (c : SCentroid F) (dp : DataPoint F) : SGo F (Bool × SCentroid F) :=
  if dp.vec.length ≠ c.vec.length then pure (false, c)
  else do
    let e ← lift (dp.expired tk)
    if e then pure (false, c)
    else do
      let c' ← addRaw grow c dp
      pure (true, c')

/-- pkg/kmeans/centroid/centroid.go:104-109: the vector adjusted for a removal. -/
def rmVec (c : SCentroid F) (index : Nat) : SGo F (List F) :=
  if 1 < c.dps.len then do
    let dp ← read c.dps index
    let v1 := vecMulScalar c.vec (ofNat c.dps.len)
    let v2 := (vecSub v1 dp.vec).1
    pure (vecDivScalar v2 (ofNat (c.dps.len - 1)))
  else pure c.vec

/-- pkg/kmeans/centroid/centroid.go:102-112 `rmDataPoint`: line 111 shifts the elements within the array. -/
def rm (grow : Nat → Nat → Nat) (c : SCentroid F) (index : Nat) : SGo F (SCentroid F) := do
  let v ← rmVec c index
  let a ← sliceTo c.dps index
  let b ← sliceFrom c.dps (index + 1)
  let xs ← load b
  let s ← append grow a xs
  pure { c with vec := v, dps := s }

/-- The skipping loop of the generator, pkg/kmeans/centroid/centroid.go:120-122. -/
def skipExpired (grow : Nat → Nat → Nat) (tk : Nat → Int) (i : Nat) : Nat → SCentroid F → SGo F (SCentroid F)
  | 0, c => pure c
  | fuel + 1, c =>
    if i < c.dps.len then do
      let d ← read c.dps i
      let e ← lift (d.expired tk)
      if e then do
        let c' ← rm grow c i
        skipExpired grow tk i fuel c'
      else pure c
    else pure c

/-- One call of the generator made by pkg/kmeans/centroid/centroid.go:116-129 `dataPointVecGenerator`. -/
def genNext (grow : Nat → Nat → Nat) (tk : Nat → Int) (c : SCentroid F) (i : Nat) :
    SGo F (Option (List F) × SCentroid F × Nat) := do
  let c' ← skipExpired grow tk i c.dps.len c
  if i < c'.dps.len then do
    let d ← read c'.dps i
    pure (some d.vec, c', i + 1)
  else pure (none, c', i)

/-- Pull the generator to its end (what a search function does). -/
def genAll (grow : Nat → Nat → Nat) (tk : Nat → Int) : Nat → SCentroid F → Nat → SGo F (List (List F) × SCentroid F)
  | 0, c, _ => pure ([], c)
  | fuel + 1, c, i => do
    let r ← genNext grow tk c i
    match r.1 with
    | none => pure ([], r.2.1)
    | some v => do
      let q ← genAll grow tk fuel r.2.1 r.2.2
      pure (v :: q.1, q.2)

/-- The loop of `DrainUnordered`, pkg/kmeans/centroid/centroid.go:135-140. -/
def drainUnorderedLoop (grow : Nat → Nat → Nat) (tk : Nat → Int) (n : Nat) : Nat → SCentroid F → Slice →
    SGo F (Slice × SCentroid F)
  | 0, c, res => pure (res, c)
  | fuel + 1, c, res =>
    if c.dps.len ≠ 0 ∧ res.len < n then do
      let d ← read c.dps 0
      let e ← lift (d.expired tk)
      if e then do
        let c' ← rm grow c 0
        drainUnorderedLoop grow tk n fuel c' res
      else do
        let d' ← read c.dps 0
        let res' ← append grow res [d']
        let c' ← rm grow c 0
        drainUnorderedLoop grow tk n fuel c' res'
    else pure (res, c)

/-- pkg/kmeans/centroid/centroid.go:133-142 `DrainUnordered`. -/
def drainUnordered (grow : Nat → Nat → Nat) (tk : Nat → Int) (c : SCentroid F) (n : Int) : SGo F (Slice × SCentroid F) := do
  lift (Go.checkMake n)
  let res ← make n.toNat
  drainUnorderedLoop grow tk n.toNat c.dps.len c res

/-- Removal of the datapoints at the given indexes, pkg/kmeans/centroid/centroid.go:160-162, 258-260. -/
def rmAll (grow : Nat → Nat → Nat) : List Nat → SCentroid F → SGo F (SCentroid F)
  | [], c => pure c
  | i :: is, c => do
    let c' ← rm grow c i
    rmAll grow is c'

/-- The loops of pkg/kmeans/centroid/centroid.go:154-156, 249-251. -/
def collect (grow : Nat → Nat → Nat) (c : SCentroid F) : List Nat → Slice → SGo F Slice
  | [], res => pure res
  | i :: is, res => do
    let d ← read c.dps i
    let res' ← append grow res [d]
    collect grow c is res'

/-- pkg/kmeans/centroid/centroid.go:150-164 `DrainOrdered`. -/
def drainOrdered (grow : Nat → Nat → Nat) (tk : Nat → Int) (c : SCentroid F) (n : Int) : SGo F (Slice × SCentroid F) := do
  lift (Go.checkMake n)
  let res ← make n.toNat
  let g ← genAll grow tk (c.dps.len + 1) c 0
  let indexes ← lift (Go.lift (c.kfn c.vec g.1 n))
  let res' ← collect grow g.2 indexes res
  let c' ← rmAll grow (Centroid.sortInts indexes).reverse g.2
  pure (res', c')

/-- The loop of `Expire`, pkg/kmeans/centroid/centroid.go:171-177. -/
def expireLoop (grow : Nat → Nat → Nat) (tk : Nat → Int) : Nat → Nat → SCentroid F → SGo F (SCentroid F)
  | 0, _, c => pure c
  | fuel + 1, i, c =>
    if i < c.dps.len then do
      let d ← read c.dps i
      let e ← lift (d.expired tk)
      if e then do
        let c' ← rm grow c i
        expireLoop grow tk fuel i c'
      else expireLoop grow tk fuel (i + 1) c
    else pure c

/-- pkg/kmeans/centroid/centroid.go:169-178 `Expire`. -/
def expire (grow : Nat → Nat → Nat) (tk : Nat → Int) (c : SCentroid F) : SGo F (SCentroid F) :=
  expireLoop grow tk c.dps.len 0 c

/-- The loop of `MemTrim`, pkg/kmeans/centroid/centroid.go:190-192; `acc` is the local `dps`. -/
def memTrimLoop (grow : Nat → Nat → Nat) (tk : Nat → Int) : Nat → SCentroid F → Slice → SGo F (Slice × SCentroid F)
  | 0, c, acc => pure (acc, c)
  | fuel + 1, c, acc =>
    if 0 < c.dps.len then do
      let r ← drainUnordered grow tk c 1
      let xs ← load r.1
      let acc' ← append grow acc xs
      memTrimLoop grow tk fuel r.2 acc'
    else pure (acc, c)

/-- pkg/kmeans/centroid/centroid.go:184-194 `MemTrim`. -/
def memTrim (grow : Nat → Nat → Nat) (tk : Nat → Int) (c : SCentroid F) : SGo F (SCentroid F) := do
  let acc ← make 0
  let r ← memTrimLoop grow tk c.dps.len c acc
  pure { r.2 with dps := r.1 }

/-- The loop of `VecMean` (pkg/mathutils/vectools.go:14-27) run on the generator of a centroid. -/
def meanLoop (grow : Nat → Nat → Nat) (tk : Nat → Int) : Nat → List F → F → SCentroid F → Nat →
    SGo F ((List F × Bool) × SCentroid F)
  | 0, res, n, c, _ => pure ((res.map (fun x => div x n), true), c)
  | fuel + 1, res, n, c, i => do
    let r ← genNext grow tk c i
    match r.1 with
    | none => pure ((res.map (fun x => div x n), true), r.2.1)
    | some v =>
      if v.length ≠ res.length then pure ((res, false), r.2.1)
      else meanLoop grow tk fuel (List.zipWith add res v) (add n (ofNat 1)) r.2.1 r.2.2

/-- pkg/kmeans/centroid/centroid.go:201-207 `MoveVector`. -/
def moveVector (grow : Nat → Nat → Nat) (tk : Nat → Int) (c : SCentroid F) : SGo F (Bool × SCentroid F) := do
  let r ← genNext grow tk c 0
  match r.1 with
  | none => pure (false, r.2.1)
  | some v => do
    let q ← meanLoop grow tk (r.2.1.dps.len + 1) v (ofNat 1) r.2.1 r.2.2
    if q.1.2 then pure (true, { q.2 with vec := q.1.1 }) else pure (false, q.2)

/-- pkg/kmeans/centroid/centroid.go:245-263 `KNNLookup`. -/
def knnLookup (grow : Nat → Nat → Nat) (tk : Nat → Int) (c : SCentroid F) (v : List F) (k : Int) (drain : Bool) :
    SGo F (Slice × SCentroid F) := do
  lift (Go.checkMake k)
  let res ← make k.toNat
  let g ← genAll grow tk (c.dps.len + 1) c 0
  let indexes ← lift (Go.lift (c.knn v g.1 k))
  let res' ← collect grow g.2 indexes res
  if drain then do
    let c' ← rmAll grow (Centroid.sortInts indexes).reverse g.2
    pure (res', c')
  else pure (res', g.2)

/-- The vectors the receiver generator yields, pkg/kmeans/centroid/centroid.go:222-228. -/
def receiverVecs (h : List (SCentroid F)) (receivers : List Nat) : List (List F) :=
  receivers.map (fun r => match h[r]? with | some c => c.vec | none => [])

/-- The distribution loop, pkg/kmeans/centroid/centroid.go:230-237, from round `j` on; `data` is the slice that
`DrainOrdered` returned. -/
def distributeLoop (grow : Nat → Nat → Nat) (tk : Nat → Int) (self : Nat) (receivers : List Nat) (data : Slice) :
    Nat → Nat → List (SCentroid F) → SGo F (List (SCentroid F))
  | 0, _, h => pure h
  | fuel + 1, j, h =>
    if j < data.len then do
      let d ← read data j
      let c ← lift (Go.idx h self)
      let indexes ← lift (Go.lift (c.knn d.vec (receiverVecs h receivers) 1))
      match indexes with
      | [] => do
        let r ← addDataPoint grow tk c d
        distributeLoop grow tk self receivers data fuel (j + 1) (h.set self r.2)
      | i :: _ => do
        let rj ← lift (Go.idx receivers i)
        let rc ← lift (Go.idx h rj)
        let a ← addDataPoint grow tk rc d
        let h1 := h.set rj a.2
        if a.1 then distributeLoop grow tk self receivers data fuel (j + 1) h1
        else do
          let c1 ← lift (Go.idx h1 self)
          let b ← addDataPoint grow tk c1 d
          distributeLoop grow tk self receivers data fuel (j + 1) (h1.set self b.2)
    else pure h

/-- pkg/kmeans/centroid/centroid.go:214-238 `DistributeDataPoints`. -/
def distribute (grow : Nat → Nat → Nat) (tk : Nat → Int) (h : List (SCentroid F)) (self : Nat) (n : Int) (receivers : List Nat) :
    SGo F (List (SCentroid F)) :=
  if receivers.length = 0 then pure h
  else do
    let c ← lift (Go.idx h self)
    let r ← drainOrdered grow tk c n
    distributeLoop grow tk self receivers r.1 r.1.len 0 (h.set self r.2)

end SCentroid
end Trypo
