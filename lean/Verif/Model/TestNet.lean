import Verif.Model.System

/-!
# The test network: core/testutils/network.go

Simplifications. Addresses are numbers. Of a node there is only what the network does with it: its address and its stop function;
what its server stores is in the `World`. The arbitration server, of another module (github.com/crunchypi/go-narb), is left out.
-/

namespace Trypo.TestNet

variable {F : Type}

/-- core/testutils/network.go:69-74 `Node`. -/
structure Node where
  addr : Addr
  /-- `StopFunc`: the address that it gives free, or nil. -/
  stopFunc : Option Addr
  deriving DecidableEq, Repr

/-- core/testutils/network.go:77-111 `StartListen`, at the addresses `bound` that somebody listens at already: `none` is an error. The
receiver is a value, so lines 89-95 set the stop function of a copy; the first component is that copy, the second one what the
caller has. -/
def Node.startListen (n : Node) (bound : List Addr) : Option (Node × Node × List Addr) :=
  if n.addr ∈ bound then none
  else some ({ n with stopFunc := some n.addr }, n, n.addr :: bound)

/-- core/testutils/network.go:114-117 `TNetwork`. The nodes are a map. -/
structure TNetwork where
  addrs : List Addr
  nodes : List (Addr × Node)
  deriving DecidableEq, Repr

/-- The loop of core/testutils/network.go:123-141. -/
def startNodes : List Addr → List (Addr × Node) → List Addr → Option (List (Addr × Node) × List Addr)
  | [], nodes, bound => some (nodes, bound)
  | a :: rest, nodes, bound =>
    match Node.startListen ⟨a, none⟩ bound with
    | none => none
    | some (_, node, bound') => startNodes rest (nodes ++ [(a, node)]) bound'

/-- core/testutils/network.go:120-144 `NewTNetwork`; `none` is the panic of line 137. -/
def new (addrs : List Addr) (bound : List Addr) : Option (TNetwork × List Addr) :=
  (startNodes addrs [] bound).map (fun r => (⟨addrs, r.1⟩, r.2))

/-- core/testutils/network.go:147-153 `Stop`: the addresses that somebody listens at then. -/
def TNetwork.stop (tn : TNetwork) (bound : List Addr) : List Addr :=
  tn.nodes.foldl (fun b n => match n.2.stopFunc with
    | some a => b.filter (fun x => x ≠ a)
    | none => b) bound

/-- core/testutils/network.go:156-169 `Reset`, with pkg/kmeans/rpc/rpc.go:127-132 `CManagerTable.Reset`: the tables of the nodes are new
and empty. (A goroutine that took a slot from the old table keeps it.) -/
def TNetwork.reset (tn : TNetwork) (w : World F) : World F :=
  { w with table := fun a => if a ∈ tn.nodes.map (fun n => n.1) then [] else w.table a }

/-- core/testutils/network.go:172-179 `UnwrapCM`: the manager, or nil; for an address that is not in the network the node is nil
(lines 174-175). -/
def TNetwork.unwrapCM (tn : TNetwork) (w : World F) (a : Addr) (ns : NS) : Except Panic (Option (Manager F)) :=
  if a ∈ tn.nodes.map (fun n => n.1) then .ok (w.get a ns) else .error .nilDeref

end Trypo.TestNet
