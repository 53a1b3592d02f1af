import Verif.Spec.EventLoop
import Verif.Spec.Nodes

/-!
# Specification: the namespace table and load balancing
-/

namespace Trypo.Spec
open EventLoop

/-- The addresses that reported the namespace, in the order of the replies; an address counts as often as it reported it. -/
def reporters (replies : List (Addr × List NS)) (ns : NS) : List Addr :=
  replies.flatMap (fun r => List.replicate (r.2.count ns) r.1)

/-- What the nodes hold after some transfers to `loc`. -/
def sizeAfter (size : Addr → Int) (loc : Addr) (log : List Stolen) (a : Addr) : Int :=
  size a + (if a = loc then (log.map (fun e => e.got)).sum else 0) -
    ((log.filter (fun e => decide (e.other = a))).map (fun e => e.got)).sum

/-- The average size, rounded down. -/
def average (l : List Int) : Int := l.sum / (l.length : Int)

/-- Asking `e.other` for `e.want` datapoints is in order when the nodes hold `size`. -/
structure GoodSteal (nRemotes nAddrs : Nat) (loc : Addr) (mean mar : Int) (size : Addr → Int) (e : Stolen) : Prop where
  notSelf : e.other ≠ loc
  under : size loc ≤ mean - mar
  positive : 0 < e.want
  third : 3 * (nRemotes * e.want) ≤ mean - size loc
  stays : mean + mar ≤ size e.other - e.want ∨ nAddrs = 1

/-- The transfers are in order, each one given those before it, and each node is asked at most once. -/
structure GoodLog (nRemotes nAddrs : Nat) (loc : Addr) (mean mar : Int) (size : Addr → Int) (nodes : List Addr)
    (log : List Stolen) : Prop where
  each : ∀ before e after, log = before ++ e :: after → GoodSteal nRemotes nAddrs loc mean mar (sizeAfter size loc before) e
  once : (log.map (fun e => e.other)).Nodup
  known : ∀ e ∈ log, e.other ∈ nodes

end Trypo.Spec
