import Verif.Model.Service
import Verif.Spec.EventLoop

/-!
# Specification: a running service
-/

namespace Trypo.Spec
open EventLoop Service

variable {F : Type} [GoFloat F]

/-- A configuration of an event loop that is accepted: the numbers of datapoints to distribute are not negative, and the interval of
`Meta` is not 0. -/
def NodeOK (n : Config × Nat × SkipConfig) : Prop := 0 ≤ n.1.fastN ∧ 0 ≤ n.1.accurateN ∧ n.2.2.getMeta ≠ 0

/-- The jobs with this source, in the order in which they were started. -/
def jobsFrom (src : Source) (s : Sys F) : List (Job F) := (s.jobs.filter (fun x => x.1 = src)).map (fun x => x.2)

/-- The requests among events, in order. -/
def arrivals (es : List (Ev F)) : List (Job F) := es.filterMap (fun e => match e with | .arrive j => some j | _ => none)

/-- The first `n` events of an endless sequence. -/
def firstN (evs : Nat → Ev F) (n : Nat) : List (Ev F) := (List.range n).map evs

/-- Every goroutine and every event loop makes a step again and again. -/
def FairRun (evs : Nat → Ev F) : Prop := (∀ i n, ∃ m, n ≤ m ∧ evs m = .run i) ∧ ∀ k n, ∃ m, n ≤ m ∧ evs m = .loop k

/-- All requests of an endless sequence of events are valid. -/
def ValidRun (D : NS → Nat) (evs : Nat → Ev F) : Prop := ∀ n j, evs n = .arrive j → j.valid D

/-- Nothing is going on: all jobs are done. -/
def Quiet (s : Sys F) (outs : List (Outcome F)) : Prop := s.progs = outs.map .ret

/-- The conduct of an event loop in a running service: it is that of the loop alone with some stop time; for every task that had its turn
the task was called, and while it ran the loop did nothing. When a task was over, exactly the goroutines of its `go` statements were
started. -/
structure LoopConduct (s : Sys F) (k : Nat) (n : Config × Nat × SkipConfig) (l : Loop) : Prop where
  same : l.cfg = n.1 ∧ l.fuel = n.2.1 ∧ l.skip = validate n.2.2
  alone : ∃ st m, (∀ i j, i ≤ j → st i = true → st j = true) ∧ (∀ j, m ≤ j → st j = l.stopped) ∧ EventLoop.run n.2.2 st m = (l.pos, l.log)
  tasks : jobsFrom (.loop k) s = (ranTasks l.log).map (fun t => .task n.1 n.2.1 t)
  waits : ∀ i, l.busy = some i → ∃ j, s.jobs[i]? = some (.loop k, j)
  calls : ∀ i j, s.jobs[i]? = some (.loop k, j) → (l.busy = some i ∧ jobsFrom (.task i) s = []) ∨
    (l.busy ≠ some i ∧ ∃ o, s.progs[i]? = some (.ret o) ∧ jobsFrom (.task i) s = (callsOf o).map .call)

/-- The conduct of all event loops. -/
structure Conduct (nodes : List (Config × Nat × SkipConfig)) (s : Sys F) : Prop where
  loops : s.loops.length = nodes.length
  each : ∀ k l, s.loops[k]? = some l → ∃ n, nodes[k]? = some n ∧ LoopConduct s k n l
  only : ∀ i, jobsFrom (.task i) s ≠ [] → ∃ k j, s.jobs[i]? = some (.loop k, j)
  known : ∀ k, jobsFrom (.loop k) s ≠ [] → k < nodes.length

end Trypo.Spec
