import Verif.Model.System

/-!
# pkg/kmeans/rpc: server.go, serverutils.go, client.go

`Server.f a …` is the method `f` of the server at address `a`; an RPC method that returns an error is `none`. `Client.f a …`
is the method `f` of `KMeansClient(a, ns, &err)`, for which every error is `none` (the code only ever distinguishes nil
from other errors: what arrives over net/rpc is never of type `NamespaceErr`).

Simplifications. Go's nil slice and the empty slice are both the empty list: gob delivers an empty vector as nil, so
the tests for nil in the modelled code are tests for emptiness of data that came over the network (for the one exception
see `Server.stealCentroid`). A request that was
received is executed completely before the caller learns that the connection broke.
-/

namespace Trypo

variable {F : Type} [GoFloat F]

/-- The arguments of `NewCentroidManager` in `CentroidManagerFactoryFunc`, cmd/service/service.go:15-28. -/
structure Factory (F : Type) where
  initCap : Int
  threshold : Int
  knn : Search F
  kfn : Search F

/-- `CentroidManagerFactoryFunc`, cmd/service/service.go:15-28. -/
def Factory.make (fac : Factory F) (v : List F) : Go (Manager F) := do
  match (← Manager.new v fac.initCap fac.threshold (some fac.knn) (some fac.kfn)) with
  | some m => pure m
  | none => Go.panic .user

namespace Server

/-- pkg/kmeans/rpc/rpc.go:156-168 `Access` together with server.go:14-20 `handleNamespaceErr`: `none` when the namespace
does not exist. -/
def access {β : Type} (a : Addr) (ns : NS) (f : Manager F → Go (β × Manager F)) : Prog F (Option β) := do
  match (← Prog.ofAct (.lookup a ns)) with
  | none => pure none
  | some i => do
    let b ← Prog.ofAct (.slot i f)
    pure (some b)

/-- pkg/kmeans/rpc/server.go:23-33 `Namespaces`. -/
def namespaces (env : Env) (a : Addr) : Prog F (List NS) := do
  let l ← Prog.ofAct (.names a)
  Prog.loc (env.shuffled l)

/-- pkg/kmeans/rpc/server.go:38-42 `Vec`. -/
def vec (a : Addr) (ns : NS) : Prog F (Option (List F)) :=
  access a ns (fun m => pure (m.vec, m))

/-- pkg/kmeans/rpc/server.go:52-68 `AddDataPoint`: the answer. The result of `cm.AddDataPoint` (line 54) is overwritten
on line 66; the one on line 59 is not looked at. -/
def addDataPoint (env : Env) (fac : Factory F) (a : Addr) (ns : NS) (dp : DataPoint F) : Prog F Bool := do
  match (← access a ns (fun m => m.addDataPoint env.tk dp)) with
  | some _ => pure true
  | none => do
    let m ← Prog.loc (do
      let m ← fac.make dp.vec
      let r ← m.addDataPoint env.tk dp
      pure r.2)
    Prog.ofAct (.addSlot a ns m)
    pure true

/-- pkg/kmeans/rpc/server.go:79-83 `DrainUnordered`. -/
def drainUnordered (env : Env) (a : Addr) (ns : NS) (n : Int) : Prog F (Option (List (DataPoint F))) :=
  access a ns (fun m => do
    let ord ← env.mapOrder
    m.drainUnordered env.tk ord n)

/-- pkg/kmeans/rpc/server.go:88-92 `DrainOrdered`. -/
def drainOrdered (env : Env) (a : Addr) (ns : NS) (n : Int) : Prog F (Option (List (DataPoint F))) :=
  access a ns (fun m => do
    let ord ← env.mapOrder
    m.drainOrdered env.tk ord n)

/-- pkg/kmeans/rpc/server.go:97-101 `Expire`. -/
def expire (env : Env) (a : Addr) (ns : NS) : Prog F (Option Unit) :=
  access a ns (fun m => do
    let m' ← m.expire env.tk
    pure ((), m'))

/-- pkg/kmeans/rpc/server.go:106-110 `LenDP`. -/
def lenDP (a : Addr) (ns : NS) : Prog F (Option Nat) :=
  access a ns (fun m => pure (m.lenDP, m))

/-- pkg/kmeans/rpc/server.go:115-119 `MemTrim`. -/
def memTrim (env : Env) (a : Addr) (ns : NS) : Prog F (Option Unit) :=
  access a ns (fun m => do
    let m' ← m.memTrim env.tk
    pure ((), m'))

/-- pkg/kmeans/rpc/server.go:124-128 `MoveVector`. -/
def moveVector (env : Env) (a : Addr) (ns : NS) : Prog F (Option Bool) :=
  access a ns (fun m => m.moveVector env.tk)

/-- pkg/kmeans/rpc/server.go:240-244 `DistributeDataPointsInternal`. -/
def distributeInternal (env : Env) (a : Addr) (ns : NS) (n : Int) : Prog F (Option Unit) :=
  access a ns (fun m => do
    let ord ← env.mapOrder
    let m' ← m.distributeInternal env.tk ord n
    pure ((), m'))

/-- pkg/kmeans/rpc/server.go:256-260 `KNNLookup`. -/
def knnLookup (env : Env) (a : Addr) (ns : NS) (v : List F) (k : Int) (drain : Bool) :
    Prog F (Option (List (DataPoint F))) :=
  access a ns (fun m => m.knnLookup env.tk v k drain)

/-- pkg/kmeans/rpc/server.go:272-276 `NearestCentroids`, with the encoding of the answer: of a centroid only the exported
field `DataPoints` is transmitted, and the failure return of the manager is the nil slice. -/
def nearestCentroids (a : Addr) (ns : NS) (v : List F) (n : Int) (drain : Bool) :
    Prog F (Option (List (List (DataPoint F)))) :=
  access a ns (fun m => do
    let r ← m.nearestCentroids v n drain
    pure ((r.1.getD []).map (fun c => c.dps), r.2))

/-- pkg/kmeans/rpc/server.go:286-293 `NearestCentroidVec`. -/
def nearestCentroidVec (a : Addr) (ns : NS) (v : List F) : Prog F (Option (List F)) :=
  access a ns (fun m => do
    let r ← m.nearestCentroids v 1 false
    match r.1.getD [] with
    | c :: _ => pure (c.vec, r.2)
    | [] => pure ([], r.2))

/-- The predicate of pkg/kmeans/rpc/server.go:306-308, 323-325. -/
def inRange (min max : Int) (c : Centroid F) : Bool := decide (min < (c.lenDP : Int)) && decide ((c.lenDP : Int) < max)

/-- pkg/kmeans/rpc/server.go:304-310 `SplitCentroids`. -/
def splitCentroids (env : Env) (a : Addr) (ns : NS) (min max : Int) : Prog F (Option Unit) :=
  access a ns (fun m => do
    let m' ← m.splitCentroids env.tk (inRange min max)
    pure ((), m'))

/-- pkg/kmeans/rpc/server.go:321-327 `MergeCentroids`. -/
def mergeCentroids (env : Env) (a : Addr) (ns : NS) (min max : Int) : Prog F (Option Unit) :=
  access a ns (fun m => do
    let m' ← m.mergeCentroids env.tk (inRange min max)
    pure ((), m'))

/-- pkg/kmeans/rpc/server.go:409-431 `Meta`: for every namespace the number of centroids and of datapoints (the two maps
of `MetaResp` have the same keys). -/
def getMeta (env : Env) (a : Addr) : Prog F (List (NS × Nat × Nat)) := do
  let l ← namespaces env a
  let r ← Prog.each (fun ns => do
    let q ← access a ns (fun m => pure ((m.centroids.length, m.lenDP), m))
    pure (q.map (fun q => (ns, q)))) l
  pure (r.filterMap id)

end Server

namespace Client

/-- pkg/kmeans/rpc/client.go:18-26 `client` followed by `rc.Call`: dial, send, run the method, receive the answer.
`none` stands for any error. -/
def call {β : Type} (env : Env) (a : Addr) (body : Prog F (Option β)) : Prog F (Option β) := do
  if (← Prog.loc (env.sent a)) then do
    let r ← body
    if (← Prog.loc (env.arrived a)) then pure r else pure none
  else pure none

/-- pkg/kmeans/rpc/client.go:29-37 `Namespaces`. -/
def namespaces (env : Env) (a : Addr) : Prog F (List NS) := do
  let r ← call env a (do let l ← Server.namespaces env a; pure (some l))
  pure (r.getD [])

/-- pkg/kmeans/rpc/client.go:42-50 `Vec`. -/
def vec (env : Env) (a : Addr) (ns : NS) : Prog F (Option (List F)) :=
  call env a (Server.vec a ns)

/-- pkg/kmeans/rpc/client.go:57-66 `AddDataPoint`. -/
def addDataPoint (env : Env) (fac : Factory F) (a : Addr) (ns : NS) (dp : DataPoint F) : Prog F Bool := do
  let r ← call env a (do let b ← Server.addDataPoint env fac a ns dp; pure (some b))
  pure (r.getD false)

/-- pkg/kmeans/rpc/client.go:71-80 `DrainUnordered`. -/
def drainUnordered (env : Env) (a : Addr) (ns : NS) (n : Int) : Prog F (List (DataPoint F)) := do
  let r ← call env a (Server.drainUnordered env a ns n)
  pure (r.getD [])

/-- pkg/kmeans/rpc/client.go:85-94 `DrainOrdered`. -/
def drainOrdered (env : Env) (a : Addr) (ns : NS) (n : Int) : Prog F (List (DataPoint F)) := do
  let r ← call env a (Server.drainOrdered env a ns n)
  pure (r.getD [])

/-- pkg/kmeans/rpc/client.go:99-103 `Expire`. -/
def expire (env : Env) (a : Addr) (ns : NS) : Prog F Unit := do
  let _ ← call env a (Server.expire env a ns)
  pure ()

/-- pkg/kmeans/rpc/client.go:108-116 `LenDP`. -/
def lenDP (env : Env) (a : Addr) (ns : NS) : Prog F Nat := do
  let r ← call env a (Server.lenDP a ns)
  pure (r.getD 0)

/-- pkg/kmeans/rpc/client.go:121-125 `MemTrim`. -/
def memTrim (env : Env) (a : Addr) (ns : NS) : Prog F Unit := do
  let _ ← call env a (Server.memTrim env a ns)
  pure ()

/-- pkg/kmeans/rpc/client.go:130-138 `MoveVector`. -/
def moveVector (env : Env) (a : Addr) (ns : NS) : Prog F Bool := do
  let r ← call env a (Server.moveVector env a ns)
  pure (r.getD false)

/-- pkg/kmeans/rpc/client.go:171-178 `DistributeDataPointsInternal`. -/
def distributeInternal (env : Env) (a : Addr) (ns : NS) (n : Int) : Prog F Unit := do
  let _ ← call env a (Server.distributeInternal env a ns n)
  pure ()

/-- pkg/kmeans/rpc/client.go:183-192 `KNNLookup`; `make` on line 183 panics in the caller for negative `k`. -/
def knnLookup (env : Env) (a : Addr) (ns : NS) (v : List F) (k : Int) (drain : Bool) : Prog F (List (DataPoint F)) := do
  Prog.loc (Go.checkMake k)
  let r ← call env a (Server.knnLookup env a ns v k drain)
  pure (r.getD [])

/-- The filtering loop of pkg/kmeans/rpc/client.go:218-222: after removing index `i` the loop goes on with index `i+1`,
so the element that moved to `i` is kept unseen. -/
def dropEmpty {α : Type} : List (List α) → List (List α)
  | [] => []
  | [] :: [] => []
  | [] :: x :: xs => x :: dropEmpty xs
  | (y :: ys) :: xs => (y :: ys) :: dropEmpty xs

/-- The default `CentroidFactory` of a client, pkg/kmeans/rpc/rpc.go:73-81. -/
def centroidFactory (v : List F) : Go (Centroid F) := do
  match (← Centroid.new v 10 (some knnCos) (some kfnCos)) with
  | some c => pure c
  | none => Go.panic .nilDeref

/-- The loop of pkg/kmeans/rpc/client.go:228-235 for one centroid; `dps[0]` panics when there are no datapoints. -/
def reinit (tk : Nat → Int) (dps : List (DataPoint F)) : Go (Centroid F) := do
  let d ← Go.idx dps 0
  let c ← centroidFactory d.vec
  let r ← { c with dps := dps }.moveVector tk
  pure r.2

/-- All of pkg/kmeans/rpc/client.go:228-235. -/
def reinitAll (tk : Nat → Int) : List (List (DataPoint F)) → Go (List (Centroid F))
  | [] => pure []
  | l :: ls => do
    let c ← reinit tk l
    let cs ← reinitAll tk ls
    pure (c :: cs)

/-- What pkg/kmeans/rpc/client.go:213-238 makes of the answer `resp` (empty for an error); `none` is `(nil, false)`. -/
def unpack (tk : Nat → Int) (resp : List (List (DataPoint F))) : Go (Option (List (Centroid F))) :=
  if resp.length = 0 then pure none
  else do
    let cs ← reinitAll tk (dropEmpty resp)
    pure (some cs)

/-- pkg/kmeans/rpc/client.go:203-238 `NearestCentroids`: whether the call had an error, and the answer. -/
def nearestCentroids (env : Env) (a : Addr) (ns : NS) (v : List F) (n : Int) (drain : Bool) :
    Prog F (Bool × Option (List (Centroid F))) := do
  let r ← call env a (Server.nearestCentroids a ns v n drain)
  let cs ← Prog.loc (unpack env.tk (r.getD []))
  pure (r.isNone, cs)

/-- pkg/kmeans/rpc/client.go:244-253 `NearestCentroidVec`. -/
def nearestCentroidVec (env : Env) (a : Addr) (ns : NS) (v : List F) : Prog F (Option (List F)) :=
  call env a (Server.nearestCentroidVec a ns v)

/-- pkg/kmeans/rpc/client.go:263-272 `SplitCentroids`. -/
def splitCentroids (env : Env) (a : Addr) (ns : NS) (min max : Int) : Prog F Unit := do
  let _ ← call env a (Server.splitCentroids env a ns min max)
  pure ()

/-- pkg/kmeans/rpc/client.go:282-291 `MergeCentroids`. -/
def mergeCentroids (env : Env) (a : Addr) (ns : NS) (min max : Int) : Prog F Unit := do
  let _ ← call env a (Server.mergeCentroids env a ns min max)
  pure ()

/-- pkg/kmeans/rpc/client.go:327-333 `Meta`. -/
def getMeta (env : Env) (a : Addr) : Prog F (List (NS × Nat × Nat)) := do
  let r ← call env a (do let l ← Server.getMeta env a; pure (some l))
  pure (r.getD [])

end Client

/-- pkg/kmeans/rpc/serverutils.go:64-73 `fetchVecs` and 51-60 `collect` (the same code as core/nodes/vecs.go:44-66): one
goroutine per address calls `fetch`; the answers that are vectors are kept in the order of their arrival. The calls are
made in some order and their answers arrive in some, possibly different, order. -/
def fetchVecs (env : Env) (addrs : List Addr) (fetch : Addr → Prog F (Option (List F))) :
    Prog F (List (Addr × List F)) := do
  let started ← Prog.loc (env.shuffled addrs)
  let answers ← Prog.each (fun a => do let r ← fetch a; pure (a, r)) started
  let arrived ← Prog.loc (env.shuffled answers)
  pure (arrived.filterMap (fun q =>
    match q.2 with
    | some (x :: xs) => some (q.1, x :: xs)
    | _ => none))

namespace Server

/-- The loop of `distributeDP`, pkg/kmeans/rpc/server.go:140-145, over the remaining indexes. -/
def distributeTo (env : Env) (fac : Factory F) (ns : NS) (addrs : List Addr) (dp : DataPoint F) :
    List Nat → Prog F Bool
  | [] => pure false
  | i :: is => do
    let a ← Prog.loc (Go.idx addrs i)
    if (← Client.addDataPoint env fac a ns dp) then pure true else distributeTo env fac ns addrs dp is

/-- pkg/kmeans/rpc/server.go:139-147 `distributeDP`. -/
def distributeDP (env : Env) (fac : Factory F) (ns : NS) (remote : List (Addr × List F)) (dp : DataPoint F) :
    Prog F Bool := do
  let is ← Prog.loc (Go.lift (knnCos dp.vec (remote.map (fun q => q.2)) remote.length))
  distributeTo env fac ns (remote.map (fun q => q.1)) dp is

/-- Putting a datapoint back, pkg/kmeans/rpc/server.go:180-184, 222-226. -/
def putBack (env : Env) (a : Addr) (ns : NS) (dp : DataPoint F) : Prog F Unit := do
  let _ ← access a ns (fun m => m.addDataPoint env.tk dp)
  pure ()

/-- The loop of pkg/kmeans/rpc/server.go:177-186. -/
def distributeFastLoop (env : Env) (fac : Factory F) (a : Addr) (ns : NS) (remote : List (Addr × List F)) :
    List (DataPoint F) → Prog F Unit
  | [] => pure ()
  | dp :: dps => do
    if (← distributeDP env fac ns remote dp) then distributeFastLoop env fac a ns remote dps
    else do
      putBack env a ns dp
      distributeFastLoop env fac a ns remote dps

/-- pkg/kmeans/rpc/server.go:155-188 `DistributeDataPointsFast`; `none` is the `NamespaceErr`. -/
def distributeFast (env : Env) (fac : Factory F) (a : Addr) (ns : NS) (n : Int) (addrOptions : List Addr) :
    Prog F (Option Unit) := do
  Prog.loc (Go.checkMake n)
  match (← drainOrdered env a ns n) with
  | none => pure none
  | some dps =>
    if dps.length = 0 ∨ addrOptions.length = 0 then pure (some ())
    else do
      let remote ← fetchVecs env addrOptions (fun b => Client.vec env b ns)
      distributeFastLoop env fac a ns remote dps
      pure (some ())

/-- The loop of pkg/kmeans/rpc/server.go:209-228. -/
def distributeAccurateLoop (env : Env) (fac : Factory F) (a : Addr) (ns : NS) (addrOptions : List Addr) :
    List (DataPoint F) → Prog F Unit
  | [] => pure ()
  | dp :: dps => do
    let remote ← fetchVecs env addrOptions (fun b => Client.nearestCentroidVec env b ns dp.vec)
    if (← distributeDP env fac ns remote dp) then distributeAccurateLoop env fac a ns addrOptions dps
    else do
      putBack env a ns dp
      distributeAccurateLoop env fac a ns addrOptions dps

/-- pkg/kmeans/rpc/server.go:197-230 `DistributeDataPointsAccurate`; `none` is the `NamespaceErr`. -/
def distributeAccurate (env : Env) (fac : Factory F) (a : Addr) (ns : NS) (n : Int) (addrOptions : List Addr) :
    Prog F (Option Unit) := do
  Prog.loc (Go.checkMake n)
  match (← drainOrdered env a ns n) with
  | none => pure none
  | some dps =>
    if dps.length = 0 ∨ addrOptions.length = 0 then pure (some ())
    else do
      distributeAccurateLoop env fac a ns addrOptions dps
      pure (some ())

/-- pkg/kmeans/rpc/server.go:336-339 `StealCentroidsResp`. -/
structure StealResp where
  transferredN : Nat
  ok : Bool
  deriving DecidableEq, Repr

/-- The loop of `StealCentroid`, pkg/kmeans/rpc/server.go:376-390: whether the last call of the client had an error, and
`TransferredN`. The fuel is not in the code; `C37_steal` shows that with more
fuel than the remote has centroids it is not used up. -/
def stealLoop (env : Env) (a : Addr) (ns : NS) (src : Addr) (localVec : List F) (limit : Int) :
    Nat → Nat → Prog F (Bool × Nat)
  | 0, n => pure (false, n)
  | fuel + 1, n =>
    if (n : Int) < limit then do
      let q ← Client.nearestCentroids env src ns localVec 1 true
      match q.2 with
      | some (c :: cs) =>
        let k ← access a ns (fun m => pure (c.lenDP, { m with centroids := m.centroids ++ (c :: cs) }))
        stealLoop env a ns src localVec limit fuel (n + k.getD 0)
      | _ => pure (q.1, n)
    else pure (false, n)

/-- pkg/kmeans/rpc/server.go:375-397, the part after the vector is known. -/
def stealWith (env : Env) (fuel : Nat) (a : Addr) (ns : NS) (src : Addr) (limit : Int) (localVec : List F) :
    Prog F StealResp := do
  let q ← stealLoop env a ns src localVec limit fuel 0
  let _ ← access a ns (fun m => m.moveVector env.tk)
  pure ⟨q.2, !q.1⟩

/-- pkg/kmeans/rpc/server.go:353-398 `StealCentroid` of the server at `a`, from the server at `src`. The vector of a manager
is never the nil slice (each of pkg/kmeans/centroidmanager/cmanager.go:91, 214-217, 244, 360-362, 379, 485-487, 577-579 ends
with one made by `make`), so the test `localVec == nil` of line 367 asks whether this node has the namespace; the vector
tested in line 369 came over the network. -/
def stealCentroid (env : Env) (fac : Factory F) (fuel : Nat) (a : Addr) (ns : NS) (src : Addr) (limit : Int) :
    Prog F StealResp := do
  let v ← access a ns (fun m => pure (m.vec, m))
  match v with
  | some localVec => stealWith env fuel a ns src limit localVec
  | none => do
    let rv ← Client.vec env src ns
    match rv.getD [] with
    | [] => pure ⟨0, false⟩
    | y :: ys => do
      let m ← Prog.loc (fac.make (y :: ys))
      Prog.ofAct (.addSlot a ns m)
      stealWith env fuel a ns src limit (y :: ys)

end Server

namespace Client

/-- pkg/kmeans/rpc/client.go:147-152 `DistributeDataPointsFast`. -/
def distributeFast (env : Env) (fac : Factory F) (a : Addr) (ns : NS) (addrs : List Addr) (n : Int) : Prog F Unit := do
  let _ ← call env a (Server.distributeFast env fac a ns n addrs)
  pure ()

/-- pkg/kmeans/rpc/client.go:161-166 `DistributeDataPointsAccurate`. -/
def distributeAccurate (env : Env) (fac : Factory F) (a : Addr) (ns : NS) (addrs : List Addr) (n : Int) :
    Prog F Unit := do
  let _ ← call env a (Server.distributeAccurate env fac a ns n addrs)
  pure ()

/-- pkg/kmeans/rpc/client.go:309-324 `StealCentroids`. -/
def stealCentroids (env : Env) (fac : Factory F) (fuel : Nat) (a : Addr) (ns : NS) (src : Addr) (limit : Int) :
    Prog F (Nat × Bool) := do
  let r ← call env a (do let q ← Server.stealCentroid env fac fuel a ns src limit; pure (some q))
  match r with
  | some q => pure (q.transferredN, q.ok)
  | none => pure (0, false)

end Client
end Trypo
