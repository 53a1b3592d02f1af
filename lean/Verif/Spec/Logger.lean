import Verif.Model.Logger
import Verif.Spec.Jobs

/-!
# Specification: what the default logger prints
-/

namespace Trypo.Spec
open EventLoop

variable {F : Type} [GoFloat F]

/-- The nodes that are shown: the local one, or all of them. -/
def shown (cfg : Config) : List Addr := if cfg.logLocalOnly then [cfg.loc] else cfg.remotes

/-- The totals of a node: its namespaces, their centroids and their datapoints. -/
def TotalsOf (w : World F) (a : Addr) (t : Nat × Nat × Nat) : Prop :=
  ∃ l : List (NS × Manager F), (l.map (fun e => e.1)).Nodup ∧ (∀ ns m, (ns, m) ∈ l ↔ w.get a ns = some m) ∧
    t = (l.length, (l.map (fun e => e.2.centroids.length)).sum, (l.map (fun e => (stored e.2).length)).sum)

/-- A line for the node `a` at a node `loc` that works on the task `s`: the totals, and the task if the node is the local one. -/
structure StatusLine {T : Type} (loc : Addr) (s : T) (totals : Addr → Nat × Nat × Nat → Prop) (a : Addr) (x : Line T) : Prop where
  addr : x.addr = a
  totals : ∃ t, x.totals = some t ∧ totals a t
  task : x.task = if a = loc then some s else none

end Trypo.Spec
