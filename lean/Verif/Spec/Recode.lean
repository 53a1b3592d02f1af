import Verif.Spec.Symmetry
import Verif.Spec.Jobs
import Verif.Model.Service

/-!
# Specification: writing the data in another way

What it means to replace every datapoint `d` by `g d`, everywhere in the system: in what is stored, in requests, and in answers. Vectors that
are not part of a datapoint are replaced by `φ`; `ψ` is the way back.
-/

namespace Trypo.Spec

variable {F : Type}

/-- A centroid with other datapoints. -/
def codeCentroid (g : DataPoint F → DataPoint F) (φ ψ : List F → List F) (c : Centroid F) : Centroid F :=
  ⟨φ c.vec, c.dps.map g, moveSearch ψ c.knn, moveSearch ψ c.kfn⟩

/-- A manager with other datapoints. -/
def codeManager (g : DataPoint F → DataPoint F) (φ ψ : List F → List F) (m : Manager F) : Manager F :=
  ⟨φ m.vec, m.initCap, m.centroids.map (codeCentroid g φ ψ), m.threshold, moveSearch ψ m.knn, moveSearch ψ m.kfn⟩

/-- All nodes with other datapoints. -/
def codeWorld (g : DataPoint F → DataPoint F) (φ ψ : List F → List F) (w : World F) : World F :=
  ⟨w.table, w.heap.map fun s => (s.1, codeManager g φ ψ s.2)⟩

/-- A datapoint of the API, written in another way. -/
def codeDP (g : DataPoint F → DataPoint F) (d : Api.DP F) : Api.DP F := Api.ofDataPoint (g d.toDataPoint)

/-- A request with other datapoints. -/
def codeRequest (g : DataPoint F → DataPoint F) (φ : List F → List F) : Request F → Request F
  | .add a ns d => .add a ns (g d)
  | .knnLookup a ns v k drain => .knnLookup a ns (φ v) k drain
  | .nearestCentroids a ns v n drain => .nearestCentroids a ns (φ v) n drain
  | .nearestCentroidVec a ns v => .nearestCentroidVec a ns (φ v)
  | r => r

/-- An answer with other datapoints. -/
def codeAnswer (g : DataPoint F → DataPoint F) (φ : List F → List F) : Answer F → Answer F
  | .vec v => .vec (φ v)
  | .dps l => .dps (l.map g)
  | .centroids l => .centroids (l.map (List.map g))
  | a => a

/-- A job with other datapoints. -/
def codeJob (g : DataPoint F → DataPoint F) (φ : List F → List F) : Job F → Job F
  | .rpc r => .rpc (codeRequest g φ r)
  | .put addrs body => .put addrs (body.map fun o => ⟨o.ns, o.accurate, codeDP g o.dp⟩)
  | .query addrs body => .query addrs (body.map fun o => ⟨o.ns, o.accurate, φ o.vec, o.n, o.drain⟩)
  | j => j

/-- What a job hands out, with other datapoints. -/
def codeOutcome (g : DataPoint F → DataPoint F) (φ : List F → List F) : Outcome F → Outcome F
  | .answer a => .answer (codeAnswer g φ a)
  | .found n l => .found n (l.map (codeDP g))
  | o => o

/-- An event with other datapoints. -/
def codeEv (g : DataPoint F → DataPoint F) (φ : List F → List F) : Service.Ev F → Service.Ev F
  | .arrive j => .arrive (codeJob g φ j)
  | e => e

/-- What can be seen of the goroutines: what those that have ended handed out. -/
def outcomes (s : Service.Sys F) : List (Option (Outcome F)) :=
  s.progs.map fun m => match m with
    | .ret o => some o
    | .act _ _ => none

/-- Two services in the same state, but for the way in which datapoints are written: the event loops are at the same place and have done
the same, the same goroutines were started by the same and the same ones have ended, with what they hand out written in the other way, and
the nodes hold the same, written in the other way. -/
structure Recoded (g : DataPoint F → DataPoint F) (φ ψ : List F → List F) (s s' : Service.Sys F) : Prop where
  loops : s'.loops = s.loops
  jobs : s'.jobs = s.jobs.map fun q => (q.1, codeJob g φ q.2)
  outcomes : outcomes s' = (outcomes s).map (Option.map (codeOutcome g φ))
  world : s'.world = codeWorld g φ ψ s.world
  now : s'.now = s.now

/-- Two runs that panic in the same way, or end with results that are related. -/
inductive Agree {β β' : Type u} (R : β → β' → Prop) : Except Panic β → Except Panic β' → Prop
  | ok {b : β} {b' : β'} (r : R b b') : Agree R (.ok b) (.ok b')
  | error (e : Panic) : Agree R (.error e) (.error e)

/-- A factory of managers whose search functions see the vectors as they were. -/
def codeFactory (ψ : List F → List F) (fac : Factory F) : Factory F := { fac with knn := moveSearch ψ fac.knn, kfn := moveSearch ψ fac.kfn }

end Trypo.Spec

namespace Trypo

variable {F : Type} [GoFloat F]

/-- Another way to write the datapoints, together with another clock: the vectors change as in `Equi`, and `g d` is expired at a
reading of the clock `tk'` if and only if `d` is at the same reading of the clock `tk`. -/
structure Recode (g : DataPoint F → DataPoint F) (φ ψ : List F → List F) (tk tk' : Nat → Int) : Prop extends Equi φ ψ where
  vec : ∀ d, (g d).vec = φ d.vec
  exp : ∀ d p, (g d).expiredAt (tk' p) = d.expiredAt (tk p)

end Trypo
