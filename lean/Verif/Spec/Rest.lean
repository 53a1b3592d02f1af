import Verif.Spec.Balance
import Verif.Spec.Jobs

/-!
# Specification: load balancing that comes to rest
-/

namespace Trypo.Spec
open EventLoop

variable {F : Type} [GoFloat F]

/-- The transfers in a namespace that runs of the load-balancing task report. -/
def transfers (reports : List Report) (ns : NS) : List Stolen :=
  reports.flatMap (fun r => match r with
    | .balanced l => l.flatMap (fun e => if e.1 = ns then e.2.2 else [])
    | _ => [])

/-- How many datapoints the transfers moved. -/
def movedIn (reports : List Report) (ns : NS) : Int := ((transfers reports ns).map (fun e => e.got)).sum

/-- How unevenly the datapoints of a namespace lie at the nodes: the sum of the squares of their numbers. -/
def unevenness (w : World F) (nodes : List Addr) (ns : NS) : Int :=
  (nodes.map (fun a => ((storedAt w [a] ns).length : Int) ^ 2)).sum

/-- Two fifths of the average number of datapoints per node, twice: what a node may be above the average and another one below
without being balanced. -/
def leeway (w : World F) (nodes : List Addr) (ns : NS) : Nat := 2 * (2 * ((storedAt w nodes ns).length / nodes.length) / 5)

/-- Nothing stands in the way of balancing: the nodes reach each other, no datapoint expires, and no centroid has more
datapoints than the leeway. -/
structure Calm (env : Env) (nodes : List Addr) (w : World F) : Prop where
  nodup : nodes.Nodup
  reach : ∀ a ∈ nodes, Reachable env a
  stay : ∀ ns, ∀ d ∈ storedAt w nodes ns, d.expireEnabled = false
  small : ∀ a ∈ nodes, ∀ ns m, w.get a ns = some m → ∀ c ∈ m.centroids, c.dps.length ≤ leeway w nodes ns
  /-- the margin is computed with floats -/
  exact : ∀ ns, (storedAt w nodes ns).length < 2 ^ 50

/-- The average size of the nodes that have the namespace, rounded down. -/
def meanAt (w : World F) (nodes : List Addr) (ns : NS) : Int :=
  ((storedAt w nodes ns).length : Int) / ((nodes.filter (fun a => (w.get a ns).isSome)).length : Int)

/-- The node `loc` has less than three fifths of the average, a third of its share of what is missing is `n`, and there is a node that
still has seven fifths of the average when it gives `n` datapoints away. -/
structure Short (w : World F) (nodes : List Addr) (loc : Addr) (ns : NS) (n : Int) : Prop where
  low : ((storedAt w [loc] ns).length : Int) ≤ meanAt w nodes ns - 2 * meanAt w nodes ns / 5
  share : (meanAt w nodes ns - (storedAt w [loc] ns).length) / (nodes.length : Int) / 3 = n
  some : 0 < n
  spare : ∃ o ∈ nodes, o ≠ loc ∧ meanAt w nodes ns + 2 * meanAt w nodes ns / 5 ≤ ((storedAt w [o] ns).length : Int) - n

end Trypo.Spec
