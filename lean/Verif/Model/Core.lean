import Verif.Model.Server

/-!
# core/nodes, core/dps and core/api

Simplifications. The search function in the arguments is a parameter where the code has one. JSON decoding is not
modelled: a request body is what it decodes to, or nothing. A panic in an HTTP handler is a panic here, although
net/http ends only the connection: see Model/Http.lean. `fetchVecs` is shared with pkg/kmeans/rpc/serverutils.go, which has the same code.
-/

namespace Trypo

variable {F : Type} [GoFloat F]

/-- The loop of core/nodes/nodes.go:48-50: the addresses at the given indexes. -/
def pick (addrs : List Addr) : List Nat → Go (List Addr)
  | [] => pure []
  | i :: is => do
    let a ← Go.idx addrs i
    let as ← pick addrs is
    pure (a :: as)

namespace Nodes

/-- core/nodes/nodes.go:41-52 `bestFitNodes`. -/
def bestFitNodes (env : Env) (search : Search F) (addrs : List Addr) (v : List F)
    (fetch : Addr → Prog F (Option (List F))) : Prog F (List Addr) := do
  let rsp ← fetchVecs env addrs fetch
  Prog.loc (do
    let is ← Go.lift (search v (rsp.map (fun q => q.2)) rsp.length)
    pick (rsp.map (fun q => q.1)) is)

/-- core/nodes/nodes.go:59-63 `BestFitNodesFast`, with `fetchVecsFast`, core/nodes/vecs.go:70-76. -/
def bestFitNodesFast (env : Env) (search : Search F) (addrs : List Addr) (ns : NS) (v : List F) : Prog F (List Addr) :=
  bestFitNodes env search addrs v (fun a => Client.vec env a ns)

/-- core/nodes/nodes.go:72-76 `BestFitNodesAccurate`, with `fetchVecsAccurate`, core/nodes/vecs.go:83-90. -/
def bestFitNodesAccurate (env : Env) (search : Search F) (addrs : List Addr) (ns : NS) (v : List F) :
    Prog F (List Addr) :=
  bestFitNodes env search addrs v (fun a => Client.nearestCentroidVec env a ns v)

end Nodes

namespace Dps

/-- The swap on core/dps/dps.go:32. -/
def swap {α : Type} (l : List α) (i j : Nat) : Go (List α) := do
  let x ← Go.idx l i
  let y ← Go.idx l j
  pure ((l.set i y).set j x)

/-- The loop of core/dps/dps.go:29-33, from index `i` on; `n` is the length of the list. -/
def shuffleFrom {α : Type} (env : Env) (n : Nat) : Nat → Nat → List α → Go (List α)
  | 0, _, l => pure l
  | k + 1, i, l => do
    let j ← env.intn n
    let l' ← swap l i j
    shuffleFrom env n k (i + 1) l'

/-- core/dps/dps.go:25-35 `shuffleAddrs`; the copy on line 27 is what makes the list a new one. -/
def shuffleAddrs (env : Env) (addrs : List Addr) : Go (List Addr) :=
  shuffleFrom env addrs.length addrs.length 0 addrs

/-- core/dps/putdps.go:32-41 `putDataPoint`. -/
def putDataPoint (env : Env) (fac : Factory F) (ns : NS) (dp : DataPoint F) : List Addr → Prog F Bool
  | [] => pure false
  | a :: as => do
    if (← Client.addDataPoint env fac a ns dp) then pure true else putDataPoint env fac ns dp as

/-- core/dps/putdps.go:44-47 `PutDataPointRand`. -/
def putDataPointRand (env : Env) (fac : Factory F) (addrs : List Addr) (ns : NS) (dp : DataPoint F) : Prog F Bool := do
  let as ← Prog.loc (shuffleAddrs env addrs)
  putDataPoint env fac ns dp as

/-- core/dps/putdps.go:52-55 `PutDataPointFast`. -/
def putDataPointFast (env : Env) (fac : Factory F) (search : Search F) (addrs : List Addr) (ns : NS) (dp : DataPoint F) :
    Prog F Bool := do
  let as ← Nodes.bestFitNodesFast env search addrs ns dp.vec
  putDataPoint env fac ns dp as

/-- core/dps/putdps.go:59-62 `PutDataPointAccurate`. -/
def putDataPointAccurate (env : Env) (fac : Factory F) (search : Search F) (addrs : List Addr) (ns : NS)
    (dp : DataPoint F) : Prog F Bool := do
  let as ← Nodes.bestFitNodesAccurate env search addrs ns dp.vec
  putDataPoint env fac ns dp as

/-- The loop of core/dps/getdps.go:21-28; `res` is what was found so far. -/
def getFrom (env : Env) (ns : NS) (v : List F) (n : Int) (drain : Bool) :
    List Addr → List (DataPoint F) → Prog F (List (DataPoint F))
  | [], res => pure res
  | a :: as, res => do
    let l ← Client.knnLookup env a ns v (n - res.length) drain
    if (((res ++ l).length : Nat) : Int) ≥ n then pure (res ++ l) else getFrom env ns v n drain as (res ++ l)

/-- core/dps/getdps.go:19-30 `getDataPoints`; `make` on line 20 panics for negative `n`. -/
def getDataPoints (env : Env) (addrs : List Addr) (ns : NS) (v : List F) (n : Int) (drain : Bool) :
    Prog F (List (DataPoint F)) := do
  Prog.loc (Go.checkMake n)
  getFrom env ns v n drain addrs []

/-- core/dps/getdps.go:69-72 `GetDataPointsRand`. -/
def getDataPointsRand (env : Env) (addrs : List Addr) (ns : NS) (v : List F) (n : Int) (drain : Bool) :
    Prog F (List (DataPoint F)) := do
  let as ← Prog.loc (shuffleAddrs env addrs)
  getDataPoints env as ns v n drain

/-- core/dps/getdps.go:77-80 `GetDataPointsFast`. -/
def getDataPointsFast (env : Env) (search : Search F) (addrs : List Addr) (ns : NS) (v : List F) (n : Int)
    (drain : Bool) : Prog F (List (DataPoint F)) := do
  let as ← Nodes.bestFitNodesFast env search addrs ns v
  getDataPoints env as ns v n drain

/-- core/dps/getdps.go:85-88 `GetDataPointsAccurate`. -/
def getDataPointsAccurate (env : Env) (search : Search F) (addrs : List Addr) (ns : NS) (v : List F) (n : Int)
    (drain : Bool) : Prog F (List (DataPoint F)) := do
  let as ← Nodes.bestFitNodesAccurate env search addrs ns v
  getDataPoints env as ns v n drain

end Dps

namespace Api

/-- core/api/conv.go:9-14 `DP`. -/
structure DP (F : Type) where
  vec : List F
  payload : List UInt8
  expires : Int
  expireEnabled : Bool
  deriving DecidableEq

/-- core/api/conv.go:17-24 `toDataPoint`. -/
def DP.toDataPoint (d : DP F) : DataPoint F := ⟨d.vec, d.payload, d.expires, d.expireEnabled⟩

/-- The body of the loop of `DataPointsToDPs`, core/api/conv.go:29-35. -/
def ofDataPoint (d : DataPoint F) : DP F := ⟨d.vec, d.payload, d.expires, d.expireEnabled⟩

/-- core/api/conv.go:27-38 `DataPointsToDPs`. -/
def dataPointsToDPs (l : List (DataPoint F)) : List (DP F) := l.map ofDataPoint

/-- The request of core/api/handler.go:51-55. -/
structure PutOpts (F : Type) where
  ns : NS
  accurate : Bool
  dp : DP F

/-- core/api/handler.go:50-90 `putDataPoint`: the HTTP status. `body` is what the body decodes to (`none`: it does not,
core/api/handler.go:36-47). -/
def putDataPoint (env : Env) (fac : Factory F) (addrs : List Addr) (body : Option (PutOpts F)) : Prog F Nat := do
  match body with
  | none => pure 400
  | some o => do
    let ok ← (if o.accurate then Dps.putDataPointAccurate env fac knnCos addrs o.ns o.dp.toDataPoint
      else Dps.putDataPointFast env fac knnCos addrs o.ns o.dp.toDataPoint : Prog F Bool)
    let ok ← (if ok then pure true else Dps.putDataPointRand env fac addrs o.ns o.dp.toDataPoint : Prog F Bool)
    pure (if ok then 200 else 500)

/-- The request of core/api/handler.go:94-100. -/
structure QueryOpts (F : Type) where
  ns : NS
  accurate : Bool
  vec : List F
  n : Int
  drain : Bool

/-- core/api/handler.go:93-134 `queryDataPoint`: the HTTP status and the datapoints in the answer. -/
def queryDataPoint (env : Env) (addrs : List Addr) (body : Option (QueryOpts F)) : Prog F (Nat × List (DP F)) := do
  match body with
  | none => pure (400, [])
  | some o => do
    let l ← (if o.accurate then Dps.getDataPointsAccurate env knnCos addrs o.ns o.vec o.n o.drain
      else Dps.getDataPointsFast env knnCos addrs o.ns o.vec o.n o.drain : Prog F (List (DataPoint F)))
    pure (200, dataPointsToDPs l)

end Api
end Trypo
