import Verif.Model.Server
import Verif.Spec.Bag
import Verif.Spec.Search
import Verif.Spec.ManagerHistory

/-!
# Specification: the system of nodes
-/

namespace Trypo.Spec

variable {F : Type} [GoFloat F]

/-- What is assumed of the environment: the clock never runs backwards, map orders and arrival orders are orders, random
numbers are in range. Nothing is assumed of the network. -/
structure EnvOK (env : Env) : Prop where
  clock : MonoClock env.tk
  perm : ∀ p n, (env.perm p n).Perm (List.range n)
  rand : ∀ p n, 0 < n → env.rand p n < n

/-- No reply is lost: a request that reaches its node is answered. Requests may still fail to reach it. -/
def NoLostReplies (env : Env) : Prop := ∀ p a, env.back p a = true

/-- At `k` moments or more from `p` up to before `p'`, the reply that arrives at that moment is lost. -/
def LostReplies (env : Env) (p p' k : Nat) : Prop :=
  ∃ times : List Nat, times.Pairwise (· < ·) ∧ (∀ q ∈ times, p ≤ q ∧ q < p' ∧ ∃ a, env.back q a = false) ∧ k ≤ times.length

/-- The shipped configuration (cmd/service/service.go with cfg/cfg.go:46-49): cosine searches, a capacity that `make`
accepts. -/
structure FactoryOK (fac : Factory F) : Prop where
  cap : 0 ≤ fac.initCap
  knn : fac.knn = knnCos
  kfn : fac.kfn = kfnCos

/-- All datapoints in slots that were created for `ns`, at any node, in a table or not. -/
def held (w : World F) (ns : NS) : List (DataPoint F) :=
  (w.heap.filter (fun s => s.1 = ns)).flatMap (fun s => stored s.2)

/-- A consistent world in which all vectors of a namespace have the same dimension. -/
structure WorldOK (D : NS → Nat) (w : World F) : Prop where
  keys : ∀ a, ((w.table a).map (fun e => e.1)).Nodup
  points : ∀ a ns i, (ns, i) ∈ w.table a → ∃ m, w.heap[i]? = some (ns, m)
  apart : ∀ a b ns i, (ns, i) ∈ w.table a → (ns, i) ∈ w.table b → a = b
  slots : ∀ s ∈ w.heap, ManagerOK s.2 ∧ s.2.knn = knnCos ∧ s.2.kfn = kfnCos ∧ s.2.vec.length = D s.1

/-- Every slot is in a table: no slot was replaced by another one. -/
def NoOrphans (w : World F) : Prop := ∀ i s, w.heap[i]? = some s → ∃ a, (s.1, i) ∈ w.table a

/-- The datapoints of a namespace at the given nodes. -/
def storedAt (w : World F) (nodes : List Addr) (ns : NS) : List (DataPoint F) :=
  nodes.flatMap (fun a => match w.get a ns with | some m => stored m | none => [])

/-- A search that finds a nearest vector in every pool of vectors of the target's dimension. -/
def AlwaysFinds (s : Search F) : Prop :=
  ∀ t (pool : List (List F)), pool ≠ [] → (∀ v ∈ pool, v.length = t.length) → ∃ j js, s t pool 1 = .ok (j :: js)

/-- An RPC request to the server at `node`, in the namespace `ns`. -/
inductive Request (F : Type) where
  | add (node : Addr) (ns : NS) (d : DataPoint F)
  | vec (node : Addr) (ns : NS)
  | lenDP (node : Addr) (ns : NS)
  | drainUnordered (node : Addr) (ns : NS) (n : Int)
  | drainOrdered (node : Addr) (ns : NS) (n : Int)
  | expire (node : Addr) (ns : NS)
  | memTrim (node : Addr) (ns : NS)
  | moveVector (node : Addr) (ns : NS)
  | distributeInternal (node : Addr) (ns : NS) (n : Int)
  | distributeFast (node : Addr) (ns : NS) (n : Int) (addrs : List Addr)
  | distributeAccurate (node : Addr) (ns : NS) (n : Int) (addrs : List Addr)
  | knnLookup (node : Addr) (ns : NS) (v : List F) (k : Int) (drain : Bool)
  | nearestCentroids (node : Addr) (ns : NS) (v : List F) (n : Int) (drain : Bool)
  | nearestCentroidVec (node : Addr) (ns : NS) (v : List F)
  | splitCentroids (node : Addr) (ns : NS) (min max : Int)
  | mergeCentroids (node : Addr) (ns : NS) (min max : Int)
  | stealCentroid (node : Addr) (ns : NS) (src : Addr) (limit : Int) (fuel : Nat)

/-- The namespace of a request. -/
def Request.ns : Request F → NS
  | .add _ ns _ => ns
  | .vec _ ns => ns
  | .lenDP _ ns => ns
  | .drainUnordered _ ns _ => ns
  | .drainOrdered _ ns _ => ns
  | .expire _ ns => ns
  | .memTrim _ ns => ns
  | .moveVector _ ns => ns
  | .distributeInternal _ ns _ => ns
  | .distributeFast _ ns _ _ => ns
  | .distributeAccurate _ ns _ _ => ns
  | .knnLookup _ ns _ _ _ => ns
  | .nearestCentroids _ ns _ _ _ => ns
  | .nearestCentroidVec _ ns _ => ns
  | .splitCentroids _ ns _ _ => ns
  | .mergeCentroids _ ns _ _ => ns
  | .stealCentroid _ ns _ _ _ => ns

/-- The node a request is sent to. -/
def Request.node : Request F → Addr
  | .add a _ _ => a
  | .vec a _ => a
  | .lenDP a _ => a
  | .drainUnordered a _ _ => a
  | .drainOrdered a _ _ => a
  | .expire a _ => a
  | .memTrim a _ => a
  | .moveVector a _ => a
  | .distributeInternal a _ _ => a
  | .distributeFast a _ _ _ => a
  | .distributeAccurate a _ _ _ => a
  | .knnLookup a _ _ _ _ => a
  | .nearestCentroids a _ _ _ _ => a
  | .nearestCentroidVec a _ _ => a
  | .splitCentroids a _ _ _ => a
  | .mergeCentroids a _ _ _ => a
  | .stealCentroid a _ _ _ _ => a

/-- Counts are not negative; datapoints to add have the dimension of their namespace. -/
def Request.valid (D : NS → Nat) : Request F → Prop
  | .add _ ns d => d.vec.length = D ns
  | .drainUnordered _ _ n => 0 ≤ n
  | .drainOrdered _ _ n => 0 ≤ n
  | .distributeFast _ _ n _ => 0 ≤ n
  | .distributeAccurate _ _ n _ => 0 ≤ n
  | .knnLookup _ _ _ k _ => 0 ≤ k
  | .nearestCentroids _ _ _ n _ => 0 ≤ n
  | _ => True

/-- What a request brings along: the datapoint to add. -/
def Request.brings : Request F → List (DataPoint F)
  | .add _ _ d => [d]
  | _ => []

/-- The answer to a request. -/
inductive Answer (F : Type) where
  /-- a `NamespaceErr` -/
  | noNamespace
  /-- an answer without content -/
  | done
  /-- a bool -/
  | bool (b : Bool)
  /-- a number -/
  | num (n : Nat)
  /-- a vector -/
  | vec (v : List F)
  /-- datapoints -/
  | dps (l : List (DataPoint F))
  /-- centroids -/
  | centroids (l : List (List (DataPoint F)))
  /-- `StealCentroidsResp` -/
  | stolen (n : Nat) (ok : Bool)
  deriving DecidableEq

/-- An answer that may be a `NamespaceErr`. -/
def answer {β : Type} (f : β → Answer F) (m : Prog F (Option β)) : Prog F (Answer F) := do
  match (← m) with
  | some b => pure (f b)
  | none => pure .noNamespace

/-- Serving a request: the modelled method of the server. -/
def Request.serve (env : Env) (fac : Factory F) : Request F → Prog F (Answer F)
  | .add a ns d => do
    let b ← Server.addDataPoint env fac a ns d
    pure (.bool b)
  | .vec a ns => answer .vec (Server.vec a ns)
  | .lenDP a ns => answer .num (Server.lenDP a ns)
  | .drainUnordered a ns n => answer .dps (Server.drainUnordered env a ns n)
  | .drainOrdered a ns n => answer .dps (Server.drainOrdered env a ns n)
  | .expire a ns => answer (fun _ => .done) (Server.expire env a ns)
  | .memTrim a ns => answer (fun _ => .done) (Server.memTrim env a ns)
  | .moveVector a ns => answer .bool (Server.moveVector env a ns)
  | .distributeInternal a ns n => answer (fun _ => .done) (Server.distributeInternal env a ns n)
  | .distributeFast a ns n addrs => answer (fun _ => .done) (Server.distributeFast env fac a ns n addrs)
  | .distributeAccurate a ns n addrs => answer (fun _ => .done) (Server.distributeAccurate env fac a ns n addrs)
  | .knnLookup a ns v k drain => answer .dps (Server.knnLookup env a ns v k drain)
  | .nearestCentroids a ns v n drain => answer .centroids (Server.nearestCentroids a ns v n drain)
  | .nearestCentroidVec a ns v => answer .vec (Server.nearestCentroidVec a ns v)
  | .splitCentroids a ns min max => answer (fun _ => .done) (Server.splitCentroids env a ns min max)
  | .mergeCentroids a ns min max => answer (fun _ => .done) (Server.mergeCentroids env a ns min max)
  | .stealCentroid a ns src limit fuel => do
    let r ← Server.stealCentroid env fac fuel a ns src limit
    pure (.stolen r.transferredN r.ok)

/-- The datapoints that leave the system with the answer. -/
def Request.takes : Request F → Answer F → List (DataPoint F)
  | .drainUnordered _ _ _, .dps l => l
  | .drainOrdered _ _ _, .dps l => l
  | .knnLookup _ _ _ _ drain, .dps l => if drain then l else []
  | .nearestCentroids _ _ _ _ drain, .centroids l => if drain then l.flatten else []
  | _, _ => []

/-- Requests that create the namespace at their node if it does not exist there. -/
def Request.mayCreate : Request F → Prop
  | .add _ _ _ => True
  | .stealCentroid _ _ _ _ _ => True
  | _ => False

/-- When a request is sure to leave no datapoint behind: a search that always finds for the requests that place
datapoints, somewhere to distribute to, and no lost replies when centroids are stolen. -/
def Request.lossless (env : Env) : Request F → Prop
  | .add _ _ _ => AlwaysFinds (knnCos (F := F))
  | .distributeFast _ _ _ addrs => AlwaysFinds (knnCos (F := F)) ∧ addrs ≠ []
  | .distributeAccurate _ _ _ addrs => AlwaysFinds (knnCos (F := F)) ∧ addrs ≠ []
  | .stealCentroid _ _ _ _ _ => NoLostReplies env
  | _ => True

/-- The same, when what is in lost replies is counted separately. -/
def Request.complete : Request F → Prop
  | .add _ _ _ => AlwaysFinds (knnCos (F := F))
  | .distributeFast _ _ _ addrs => AlwaysFinds (knnCos (F := F)) ∧ addrs ≠ []
  | .distributeAccurate _ _ _ addrs => AlwaysFinds (knnCos (F := F)) ∧ addrs ≠ []
  | _ => True

/-- Requests that take datapoints from another node. -/
def Request.fetches : Request F → Prop
  | .stealCentroid _ _ _ _ _ => True
  | _ => False

/-- What requests bring to a namespace. -/
def brought (reqs : List (Request F)) (ns : NS) : List (DataPoint F) :=
  reqs.flatMap (fun r => if r.ns = ns then r.brings else [])

/-- What leaves a namespace with the answers to requests. -/
def taken (reqs : List (Request F)) (answers : List (Answer F)) (ns : NS) : List (DataPoint F) :=
  (reqs.zip answers).flatMap (fun q => if q.1.ns = ns then q.1.takes q.2 else [])

end Trypo.Spec
