import Verif.Model.EventLoop

/-!
# core/eventloop/eltask.go: the tasks as programs

Simplifications. `go client.X()` does not run `X`: what the task hands out is the list of the calls it starts, which then
run as goroutines of their own. Log messages are not modelled, except for those of the load balancer and the data that
`eltMeta` hands to the logger. In an iteration of the loop, sleeping and the stop function are left out (they are in
`Model/EventLoop.lean`).
-/

namespace Trypo
namespace EventLoop

/-- core/eventloop/cfg.go:87-153 `EventLoopConfig`, the fields that the tasks read. -/
structure Config where
  /-- `LocalAddr` -/
  loc : Addr
  /-- `RemoteAddrs`; it "should include LocalAddr" (core/eventloop/cfg.go:89). -/
  remotes : List Addr
  /-- `DistributeDataPointsFastN` -/
  fastN : Int
  /-- `DistributeDataPointsAccurateN` -/
  accurateN : Int
  /-- `DistributeDataPointsInternalN` -/
  internalN : Int
  splitMin : Int
  splitMax : Int
  mergeMin : Int
  mergeMax : Int
  logLocalOnly : Bool

/-- The calls that are started with `go`, core/eventloop/eltask.go:45, 57, 115, 128, 141. -/
inductive Call where
  | expire (a : Addr) (ns : NS)
  | memTrim (a : Addr) (ns : NS)
  | distributeInternal (a : Addr) (ns : NS) (n : Int)
  | splitCentroids (a : Addr) (ns : NS) (min max : Int)
  | mergeCentroids (a : Addr) (ns : NS) (min max : Int)
  deriving DecidableEq, Repr

/-- What a task hands out. -/
inductive Report where
  /-- it was not its turn -/
  | skipped
  /-- nothing -/
  | done
  /-- the goroutines it started -/
  | started (calls : List Call)
  /-- for every namespace the sizes found and the transfers made by the load balancer -/
  | balanced (l : List (NS × Lens × List Stolen))
  /-- what `LogMeta` gets: per node, per namespace the numbers of centroids and datapoints -/
  | gathered (l : List (Addr × List (NS × Nat × Nat)))
  deriving DecidableEq

variable {F : Type} [GoFloat F]

/-- The goroutine of a call: the client methods named on core/eventloop/eltask.go:45, 57, 115, 128, 141. -/
def Call.prog (env : Env) : Call → Prog F Unit
  | .expire a ns => Client.expire env a ns
  | .memTrim a ns => Client.memTrim env a ns
  | .distributeInternal a ns n => Client.distributeInternal env a ns n
  | .splitCentroids a ns min max => Client.splitCentroids env a ns min max
  | .mergeCentroids a ns min max => Client.mergeCentroids env a ns min max

/-- core/eventloop/eltask.go:31-36 `withLocalAddrNamespaces` for a task that only starts a goroutine. -/
def startAll (env : Env) (cfg : Config) (f : NS → Call) : Prog F Report := do
  let l ← Client.namespaces env cfg.loc
  pure (.started (l.map f))

/-- core/eventloop/eltask.go:31-36 `withLocalAddrNamespaces` around 19-28 `withNamespaceTable`: the task gets the addresses
that the table has for the namespace. -/
def withAddrs (env : Env) (cfg : Config) (task : NS → List Addr → Prog F Unit) : Prog F Report := do
  let l ← Client.namespaces env cfg.loc
  let _ ← Prog.each (fun ns => do
    let t ← namespaceTable env cfg.remotes
    task ns (addrsWithNamespace t ns)) l
  pure .done

/-- The tasks without `withSkip`: core/eventloop/eltask.go:40-48 `eltExpire`, 52-60 `eltMemTrim`, 64-82
`eltDistributeDataPointsFast`, 86-104 `eltDistributeDataPointsAccurate`, 108-118 `eltDistributeDataPointsInternal`, 122-131
`eltSplitCentroids`, 135-144 `eltMergeCentroids`, 152-217 `eltLoadBalancing`, 219-239 `eltMeta`. -/
def task (env : Env) (fac : Factory F) (fuel : Nat) (cfg : Config) : TaskId → Prog F Report
  | .expire => startAll env cfg (fun ns => .expire cfg.loc ns)
  | .memTrim => startAll env cfg (fun ns => .memTrim cfg.loc ns)
  | .distInternal => startAll env cfg (fun ns => .distributeInternal cfg.loc ns cfg.internalN)
  | .split => startAll env cfg (fun ns => .splitCentroids cfg.loc ns cfg.splitMin cfg.splitMax)
  | .merge => startAll env cfg (fun ns => .mergeCentroids cfg.loc ns cfg.mergeMin cfg.mergeMax)
  | .distFast => withAddrs env cfg (fun ns addrs => Client.distributeFast env fac cfg.loc ns addrs cfg.fastN)
  | .distAccurate => withAddrs env cfg (fun ns addrs => Client.distributeAccurate env fac cfg.loc ns addrs cfg.accurateN)
  | .loadBalancing => do
    let t ← namespaceTable env cfg.remotes
    let nss ← Prog.loc (namespaces env t)
    let l ← Prog.each (fun ns => do
      let r ← balanceNamespace env fac fuel cfg.loc cfg.remotes t ns
      pure (ns, r)) nss
    pure (.balanced l)
  | .getMeta => do
    let l ← Prog.each (fun a => do let m ← Client.getMeta env a; pure (a, m))
      (if cfg.logLocalOnly then [cfg.loc] else cfg.remotes)
    pure (.gathered l)

/-- A task with `withSkip`, core/eventloop/eltask.go:9-13. -/
def turn (env : Env) (fac : Factory F) (fuel : Nat) (cfg : Config) (skip : SkipConfig) (iter : Int) (t : TaskId) :
    Prog F Report := do
  if (← Prog.loc (Go.lift (withSkip iter (skip.interval t)))) then task env fac fuel cfg t else pure .skipped

/-- The tasks of one iteration of the loop, core/eventloop/el.go:33-45. -/
def oneIteration (env : Env) (fac : Factory F) (fuel : Nat) (cfg : Config) (skip : SkipConfig) (iter : Int) :
    Prog F (List Report) :=
  Prog.each (turn env fac fuel cfg skip iter) order

/-- `n` iterations of the loop of core/eventloop/el.go:30-51, the first of which has number `iter`. -/
def loop (env : Env) (fac : Factory F) (fuel : Nat) (cfg : Config) (skip : SkipConfig) : Nat → Int → Prog F (List Report)
  | 0, _ => pure []
  | n + 1, iter => do
    let l ← oneIteration env fac fuel cfg skip iter
    let ls ← loop env fac fuel cfg skip n (if iter + 1 > 1000 then 0 else iter + 1)
    pure (l ++ ls)

end EventLoop
end Trypo
