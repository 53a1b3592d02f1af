import Verif.Model.EventLoop

/-!
# Specification: the event loop
-/

namespace Trypo.Spec
open EventLoop

/-- The tasks that did their work, in order. -/
def ranTasks (l : List Event) : List TaskId := l.filterMap (fun e => match e with | .ran t => some t | _ => none)

/-- How often the loop went to sleep or called a task: these are all the events there are. -/
def activity (l : List Event) : Nat := l.length

/-- In loop iteration `L` (counted from 0) the tick is `L mod 1001`; a task with interval `s` has its turn when `s` divides the tick. -/
def turn (s : Int) (L : Nat) : Bool := decide (s ∣ ((L % 1001 : Nat) : Int))

/-- The tasks in the order of the documentation. -/
def documented : List TaskId :=
  [.getMeta, .expire, .memTrim, .merge, .split, .distInternal, .distFast, .distAccurate, .loadBalancing]

/-- The interval that a configured value stands for: between 1 and 1000, except for `getMeta`, which is taken as it is. -/
def effective (t : TaskId) (v : Int) : Int := if t = .getMeta then v else max 1 (min v 1000)

/-- Everything that is done in the first `N` iterations. -/
def scheduled (intervals : TaskId → Int) (N : Nat) : List TaskId :=
  (List.range N).flatMap (fun L => documented.filter (fun t => turn (intervals t) L))

/-- The tasks of the iterations `L` to `L + n - 1`, in order, each one with the number of its iteration. -/
def calls (L n : Nat) : List (Nat × TaskId) := (List.range' L n).flatMap (fun l => documented.map (fun t => (l, t)))

end Trypo.Spec
