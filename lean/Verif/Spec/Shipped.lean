import Verif.Spec.Service

/-!
# The service with the shipped configuration

The numbers of cfg/cfg.go once more, as a reader of that file expects them to work.
-/

namespace Trypo.Spec
open EventLoop Service

/-- How often a task runs, by the comments and values of cfg/cfg.go:72-123: every so many iterations of the loop. -/
def everyShipped : TaskId → Nat
  | .getMeta => 1
  | .expire => 20
  | .memTrim => 10
  | .merge => 3
  | .split => 3
  | .distInternal => 3
  | .distFast => 4
  | .distAccurate => 8
  | .loadBalancing => 7

/-- The tasks that run in the iteration `L`, counted from 0, in order. The loop counts its iterations modulo 1001. -/
def shippedTurn (L : Nat) : List TaskId := documented.filter (fun t => L % 1001 % everyShipped t = 0)

/-- The node of cfg/cfg.go as `main` in cmd/service/service.go starts it; `fuel` bounds the loops of the load balancer (C64). -/
def shippedNode (loc : Addr) (fuel : Nat) : Config × Nat × SkipConfig := (shippedConfig loc, fuel, shippedSkip)

/-- No node has a namespace: the state in which all nodes start, pkg/kmeans/rpc/rpc.go:200-209. -/
def nothing {F : Type} : World F := ⟨fun _ => [], []⟩

end Trypo.Spec
