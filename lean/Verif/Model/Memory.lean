import Verif.Model.Core

/-!
# Queries with limited memory

`make([]T, n)` and `make([]T, 0, n)` panic if `n` is negative or the slice would have more than `L` bytes (2^48 on amd64, runtime/malloc.go of Go:
`maxAlloc`; the panic is the same for both). The rest of the model has no such limit. Here are the functions that a query runs through, with it.

Simplification: only the allocations whose size is a count of the request are limited. Less memory than `L` may be there; then the process ends in a way
that net/http cannot recover from.
-/

namespace Trypo
open GoFloat

variable {F : Type} [GoFloat F]

/-- The bytes of a `DataPoint`, pkg/kmeans/common/datapoint.go:6-11: two slices, a `time.Time` and a `bool` on a 64-bit machine. -/
def dataPointBytes : Nat := 80

/-- The bytes of a `resultItem`, pkg/searchutils/knn.go:17-27. -/
def resultItemBytes : Nat := 24

/-- `make([]T, 0, n)` for elements of `size` bytes, as in core/dps/getdps.go:20, with at most `L` bytes. -/
def Go.makeWithin (L size : Nat) (n : Int) : Go Unit :=
  if n < 0 ∨ (L : Int) < n * size then Go.panic .makeNeg else pure ()

/-- A search function whose slots have to fit, pkg/searchutils/knn.go:89. -/
def Search.within (L : Nat) (s : Search F) : Search F := fun t p k =>
  if (L : Int) < k * resultItemBytes then .error .makeNeg else s t p k

/-- pkg/kmeans/centroid/centroid.go:245-263 `KNNLookup` with limited memory. -/
def Centroid.knnLookupWithin (L : Nat) (tk : Nat → Int) (c : Centroid F) (v : List F) (k : Int) (drain : Bool) :
    Go (List (DataPoint F) × Centroid F) := do
  Go.makeWithin L dataPointBytes k
  let g ← genAll tk (c.dps.length + 1) c 0
  let indexes ← Go.lift (c.knn.within L v g.1 k)
  let res ← getAll indexes g.2
  if drain then do
    let c' ← rmAll (sortInts indexes).reverse g.2
    pure (res, c')
  else pure (res, g.2)

/-- The outer loop of `KNNLookup`, pkg/kmeans/centroidmanager/cmanager.go:428-455, with limited memory. -/
def Manager.lookupLoopWithin (L : Nat) (tk : Nat → Int) (v : List F) (k : Int) (drain : Bool) :
    List Nat → Manager F → List (DataPoint F) → Go (List (DataPoint F) × Manager F)
  | [], cm, res => pure (res, cm)
  | i :: is, cm, res =>
    if k ≤ (res.length : Int) then pure (res, cm)
    else do
      let r ← cm.onCentroid i (fun c => do
        let q ← c.knnLookupWithin L tk v (k - res.length) drain
        lookupTake tk k drain q.1 res q.2)
      lookupLoopWithin L tk v k drain is r.2 r.1

/-- pkg/kmeans/centroidmanager/cmanager.go:424-457 `KNNLookup` with limited memory. -/
def Manager.knnLookupWithin (L : Nat) (tk : Nat → Int) (cm : Manager F) (v : List F) (k : Int) (drain : Bool) :
    Go (List (DataPoint F) × Manager F) := do
  Go.makeWithin L dataPointBytes k
  let indexes ← Go.lift (cm.knn.within L v cm.centroidVecs k)
  lookupLoopWithin L tk v k drain indexes cm []

/-- pkg/kmeans/rpc/server.go:256-260 `KNNLookup` with limited memory. -/
def Server.knnLookupWithin (L : Nat) (env : Env) (a : Addr) (ns : NS) (v : List F) (k : Int) (drain : Bool) :
    Prog F (Option (List (DataPoint F))) :=
  access a ns (fun m => m.knnLookupWithin L env.tk v k drain)

/-- pkg/kmeans/rpc/client.go:183-192 `KNNLookup` with limited memory. -/
def Client.knnLookupWithin (L : Nat) (env : Env) (a : Addr) (ns : NS) (v : List F) (k : Int) (drain : Bool) : Prog F (List (DataPoint F)) := do
  Prog.loc (Go.makeWithin L dataPointBytes k)
  let r ← call env a (Server.knnLookupWithin L env a ns v k drain)
  pure (r.getD [])

/-- The loop of core/dps/getdps.go:21-28 with limited memory. -/
def Dps.getFromWithin (L : Nat) (env : Env) (ns : NS) (v : List F) (n : Int) (drain : Bool) :
    List Addr → List (DataPoint F) → Prog F (List (DataPoint F))
  | [], res => pure res
  | a :: as, res => do
    let l ← Client.knnLookupWithin L env a ns v (n - res.length) drain
    if (((res ++ l).length : Nat) : Int) ≥ n then pure (res ++ l) else getFromWithin L env ns v n drain as (res ++ l)

/-- core/dps/getdps.go:19-30 `getDataPoints` with limited memory. -/
def Dps.getDataPointsWithin (L : Nat) (env : Env) (addrs : List Addr) (ns : NS) (v : List F) (n : Int) (drain : Bool) :
    Prog F (List (DataPoint F)) := do
  Prog.loc (Go.makeWithin L dataPointBytes n)
  getFromWithin L env ns v n drain addrs []

/-- core/api/handler.go:93-134 `queryDataPoint` with limited memory; the nodes are chosen as in core/dps/getdps.go:77-88. -/
def Api.queryDataPointWithin (L : Nat) (env : Env) (addrs : List Addr) (body : Option (QueryOpts F)) : Prog F (Nat × List (DP F)) := do
  match body with
  | none => pure (400, [])
  | some o => do
    let as ← (if o.accurate then Nodes.bestFitNodesAccurate env knnCos addrs o.ns o.vec
      else Nodes.bestFitNodesFast env knnCos addrs o.ns o.vec : Prog F (List Addr))
    let l ← Dps.getDataPointsWithin L env as o.ns o.vec o.n o.drain
    pure (200, dataPointsToDPs l)

end Trypo
