import Verif.Spec.Jobs

/-!
# Specification: managers that refuse datapoints

A manager with centroids stores a datapoint in the centroid that the search finds, and drops it when the search finds none.
-/

namespace Trypo.Spec
open EventLoop

variable {F : Type} [GoFloat F]

/-- The manager has centroids, of the dimension of `d`, but the cosine similarity of `d` to each of them is NaN, or not above the
smallest finite number. -/
def TurnsAway (m : Manager F) (d : DataPoint F) : Prop :=
  m.centroids ≠ [] ∧ ∀ x ∈ m.centroids, x.vec.length = d.vec.length ∧ ∀ s, cosineSimilarity d.vec x.vec = some s → ¬ Comparable false s

/-- Some manager of the namespace turns `d` away. -/
def TurnedAway (w : World F) (ns : NS) (d : DataPoint F) : Prop := ∃ m, (ns, m) ∈ w.heap ∧ TurnsAway m d

/-- Requests that hand datapoints to managers. -/
def Request.adds : Request F → Prop
  | .add _ _ _ => True
  | .distributeFast _ _ _ _ => True
  | .distributeAccurate _ _ _ _ => True
  | _ => False

/-- Requests that hand all datapoints they have to some manager: distributions with somewhere to distribute to, and all others. -/
def Request.places : Request F → Prop
  | .distributeFast _ _ _ addrs => addrs ≠ []
  | .distributeAccurate _ _ _ addrs => addrs ≠ []
  | _ => True

/-- Jobs that hand datapoints to managers. -/
def Job.adds : Job F → Prop
  | .rpc r => r.adds
  | .put _ _ => True
  | .task _ _ .distFast => True
  | .task _ _ .distAccurate => True
  | .loop _ _ _ _ _ => True
  | _ => False

/-- Jobs that hand all datapoints they have to some manager: those of nodes that find themselves, and all but distributions. -/
def Job.places (env : Env) : Job F → Prop
  | .rpc r => r.places
  | .task cfg _ .distFast => FindsItself env cfg
  | .task cfg _ .distAccurate => FindsItself env cfg
  | .loop cfg _ _ _ _ => FindsItself env cfg
  | _ => True

/-- At some moment of a run of the jobs, some manager of the namespace turns `d` away. -/
def TurnedAwayDuring (env : Env) (fac : Factory F) (jobs : List (Job F)) (sched : List Nat) (w : World F) (p : Nat) (ns : NS)
    (d : DataPoint F) : Prop :=
  ∃ k ps w1 p1, Pool.run (sched.take k) (jobs.map (fun j => j.prog env fac)) w p = .ok (ps, w1, p1) ∧ TurnedAway w1 ns d

end Trypo.Spec
