import Verif.Model.Manager

/-!
# Distributing datapoints to any mix of receivers

`DistributeDataPoints` takes receivers of the interface type pkg/kmeans/common/datapoint.go:20-23 `DataPointReceiver`
(`Vec`, `AddDataPoint`). The library has two implementations, `*Centroid` and `*CentroidManager`, and both may be mixed.
`Model/Centroid.lean` and `Model/Manager.lean` model receivers that are centroids; here receivers are pointers into a memory of
managers and centroids, so that a manager may receive from its own centroids (and split them meanwhile), the same receiver may be
listed several times, and a centroid may be listed beside the manager that holds it.

Simplifications: a centroid is held by at most one manager; receivers implemented outside the library are not modelled.
-/

namespace Trypo

variable {F : Type} [GoFloat F]

/-- The managers and the centroids that no manager holds (pkg/kmeans/centroidmanager/cmanager.go:27-50 `CentroidManager`,
pkg/kmeans/centroid/centroid.go:21-26 `Centroid`). -/
structure Arena (F : Type) where
  ms : List (Manager F)
  cs : List (Centroid F)

/-- A `*Centroid`: one that no manager holds, or the `i`-th of the `m`-th manager. Such a pointer stays valid while datapoints are
added, because managers only append to `Centroids` then (pkg/kmeans/centroidmanager/cmanager.go:234-272). -/
inductive CRef where
  | loose (i : Nat)
  | inside (m i : Nat)
  deriving DecidableEq

/-- A `DataPointReceiver`, pkg/kmeans/common/datapoint.go:20-23. -/
inductive RRef where
  | centroid (r : CRef)
  | manager (m : Nat)
  deriving DecidableEq

namespace Arena

/-- Dereferencing a `*Centroid` (the receiver of every method of pkg/kmeans/centroid/centroid.go). -/
def getC (mem : Arena F) : CRef → Option (Centroid F)
  | .loose i => mem.cs[i]?
  | .inside m i => (mem.ms[m]?).bind (fun cm => cm.centroids[i]?)

/-- Writing through a `*Centroid`, as pkg/kmeans/centroid/centroid.go:80-87 does. The vector of the manager holding it is left alone. -/
def setC (mem : Arena F) (r : CRef) (c : Centroid F) : Arena F :=
  match r with
  | .loose i => { mem with cs := mem.cs.set i c }
  | .inside m i =>
    match mem.ms[m]? with
    | some cm => { mem with ms := mem.ms.set m { cm with centroids := cm.centroids.set i c } }
    | none => mem

/-- Dereferencing a `*Centroid` in a running program; pkg/kmeans/centroid/centroid.go:214-238 panics on a nil one. -/
def derefC (mem : Arena F) (r : CRef) : Go (Centroid F) :=
  match mem.getC r with
  | some c => pure c
  | none => Go.panic .nilDeref

/-- The `Vec` method of a receiver: pkg/kmeans/centroid/centroid.go:77, pkg/kmeans/centroidmanager/cmanager.go:222. -/
def vecOf (mem : Arena F) : RRef → List F
  | .centroid r => match mem.getC r with | some c => c.vec | none => []
  | .manager m => match mem.ms[m]? with | some cm => cm.vec | none => []

/-- The `AddDataPoint` method of a receiver: pkg/kmeans/centroid/centroid.go:91-97,
pkg/kmeans/centroidmanager/cmanager.go:234-272. -/
def addTo (tk : Nat → Int) (mem : Arena F) (r : RRef) (d : DataPoint F) : Go (Bool × Arena F) :=
  match r with
  | .centroid r => do
    let c ← mem.derefC r
    let a ← c.addDataPoint tk d
    pure (a.1, mem.setC r a.2)
  | .manager m => do
    let cm ← Go.idx mem.ms m
    let a ← cm.addDataPoint tk d
    pure (a.1, { mem with ms := mem.ms.set m a.2 })

/-- The loop of pkg/kmeans/centroid/centroid.go:230-237. -/
def distributeLoop (tk : Nat → Int) (self : CRef) (receivers : List RRef) : List (DataPoint F) → Arena F → Go (Arena F)
  | [], mem => pure mem
  | d :: ds, mem => do
    let c ← mem.derefC self
    let indexes ← Go.lift (c.knn d.vec (receivers.map mem.vecOf) 1)
    match indexes with
    | [] => do
      let r ← mem.addTo tk (.centroid self) d
      distributeLoop tk self receivers ds r.2
    | j :: _ => do
      let rj ← Go.idx receivers j
      let a ← mem.addTo tk rj d
      if a.1 then distributeLoop tk self receivers ds a.2
      else do
        let b ← a.2.addTo tk (.centroid self) d
        distributeLoop tk self receivers ds b.2

/-- pkg/kmeans/centroid/centroid.go:214-238 `Centroid.DistributeDataPoints`. -/
def distributeC (tk : Nat → Int) (mem : Arena F) (self : CRef) (n : Int) (receivers : List RRef) : Go (Arena F) :=
  if receivers.length = 0 then pure mem
  else do
    let c ← mem.derefC self
    let r ← c.drainOrdered tk n
    distributeLoop tk self receivers r.1 (mem.setC self r.2)

/-- The loop of pkg/kmeans/centroidmanager/cmanager.go:397-399. `cm.Centroids[centroidIndex]` is looked up each time, in a slice
that may have grown. -/
def portionLoop (tk : Nat → Int) (m : Nat) (receivers : List RRef) : List (Nat × Nat) → Arena F → Go (Arena F)
  | [], mem => pure mem
  | (i, portion) :: rest, mem => do
    let mem' ← mem.distributeC tk (.inside m i) portion receivers
    portionLoop tk m receivers rest mem'

/-- pkg/kmeans/centroidmanager/cmanager.go:392-404 `CentroidManager.DistributeDataPoints`; `ord` is the order in which the map
of portions is walked. -/
def distributeM (tk : Nat → Int) (ord : List (Nat × Nat) → List (Nat × Nat)) (mem : Arena F) (m : Nat) (n : Int)
    (receivers : List RRef) : Go (Arena F) :=
  if receivers.length = 0 then pure mem
  else do
    let cm ← Go.idx mem.ms m
    let mem' ← portionLoop tk m receivers (ord (cm.portionEntries n)) mem
    let cm' ← Go.idx mem'.ms m
    let r ← cm'.moveVector tk
    pure { mem' with ms := mem'.ms.set m r.2 }

end Arena
end Trypo
