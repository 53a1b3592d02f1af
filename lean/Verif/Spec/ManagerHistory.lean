import Verif.Model.Manager
import Verif.Spec.CentroidHistory

/-!
# Specification: histories of API calls on a centroid manager

`run` only dispatches to the modelled functions and collects what was accepted and what was handed out.
-/

namespace Trypo.Spec

variable {F : Type} [GoFloat F]

/-- A way in which Go may iterate over a map: any reordering of its entries. -/
def MapOrder {α : Type} (ord : List α → List α) : Prop := ∀ l, (ord l).Perm l

/-- A call on the manager. Calls that iterate over a map carry the iteration order. -/
inductive ManagerCall (F : Type) where
  | add (d : DataPoint F)
  | drainUnordered (n : Int) (ord : List (Nat × Nat) → List (Nat × Nat))
  | drainOrdered (n : Int) (ord : List (Nat × Nat) → List (Nat × Nat))
  | expire
  | memTrim
  | moveVector
  | distributeInternal (n : Int) (ord : List (Nat × Nat) → List (Nat × Nat))
  | knnLookup (v : List F) (k : Int) (drain : Bool)
  | nearestCentroids (v : List F) (n : Int) (drain : Bool)
  | splitCentroids (pred : Centroid F → Bool)
  | mergeCentroids (pred : Centroid F → Bool)

/-- What a history has done so far: the manager, all datapoints for which `AddDataPoint` answered true, all datapoints
handed out by draining calls (directly or inside drained centroids). -/
structure ManagerWorld (F : Type) where
  cm : Manager F
  accepted : List (DataPoint F)
  out : List (DataPoint F)

/-- One call. -/
def ManagerCall.run (tk : Nat → Int) (w : ManagerWorld F) : ManagerCall F → Go (ManagerWorld F)
  | .add d => do
    let r ← w.cm.addDataPoint tk d
    pure { w with cm := r.2, accepted := if r.1 then d :: w.accepted else w.accepted }
  | .drainUnordered n ord => do
    let r ← w.cm.drainUnordered tk ord n
    pure { w with cm := r.2, out := w.out ++ r.1 }
  | .drainOrdered n ord => do
    let r ← w.cm.drainOrdered tk ord n
    pure { w with cm := r.2, out := w.out ++ r.1 }
  | .expire => do
    let cm ← w.cm.expire tk
    pure { w with cm := cm }
  | .memTrim => do
    let cm ← w.cm.memTrim tk
    pure { w with cm := cm }
  | .moveVector => do
    let r ← w.cm.moveVector tk
    pure { w with cm := r.2 }
  | .distributeInternal n ord => do
    let cm ← w.cm.distributeInternal tk ord n
    pure { w with cm := cm }
  | .knnLookup v k drain => do
    let r ← w.cm.knnLookup tk v k drain
    pure { w with cm := r.2, out := w.out ++ if drain then r.1 else [] }
  | .nearestCentroids v n drain => do
    let r ← w.cm.nearestCentroids v n drain
    pure { w with cm := r.2, out := w.out ++ if drain then (r.1.getD []).flatMap (fun c => c.dps) else [] }
  | .splitCentroids pred => do
    let cm ← w.cm.splitCentroids tk pred
    pure { w with cm := cm }
  | .mergeCentroids pred => do
    let cm ← w.cm.mergeCentroids tk pred
    pure { w with cm := cm }

/-- All calls, in order. -/
def runManagerCalls (tk : Nat → Int) : List (ManagerCall F) → ManagerWorld F → Go (ManagerWorld F)
  | [], w => pure w
  | o :: os, w => do
    let w' ← o.run tk w
    runManagerCalls tk os w'

/-- Build a manager and make the calls. -/
def runManager (tk : Nat → Int) (initVec : List F) (initCap threshold : Int) (knn kfn : Search F)
    (os : List (ManagerCall F)) : Go (ManagerWorld F) := do
  match (← Manager.new initVec initCap threshold (some knn) (some kfn)) with
  | some cm => runManagerCalls tk os ⟨cm, [], []⟩
  | none => Go.panic .user

/-- Counts are not negative and map orders are map orders. -/
def ManagerCall.valid : ManagerCall F → Prop
  | .drainUnordered n ord => 0 ≤ n ∧ MapOrder ord
  | .drainOrdered n ord => 0 ≤ n ∧ MapOrder ord
  | .distributeInternal n ord => 0 ≤ n ∧ MapOrder ord
  | .knnLookup _ k _ => 0 ≤ k
  | .nearestCentroids _ n _ => 0 ≤ n
  | _ => True

/-- Calls that keep `Vec` up to date. -/
def ManagerCall.tracksVec : ManagerCall F → Prop
  | .memTrim => False
  | .splitCentroids _ => False
  | .mergeCentroids _ => False
  | _ => True

/-- Calls that never make a centroid larger, other than `AddDataPoint`. -/
def ManagerCall.keepsSizes : ManagerCall F → Prop
  | .distributeInternal _ _ => False
  | .mergeCentroids _ => False
  | _ => True

/-- A consistent manager: what every manager built through the API is (`C19_manager_consistent`). -/
structure ManagerOK (cm : Manager F) : Prop where
  cap : 0 ≤ cm.initCap
  good : GoodSearch cm.knn ∧ GoodSearch cm.kfn
  search : ∀ c ∈ cm.centroids, c.knn = cm.knn ∧ c.kfn = cm.kfn
  dim : ∀ c ∈ cm.centroids, c.vec.length = cm.vec.length ∧ ∀ d ∈ c.dps, d.vec.length = c.vec.length

/-- All datapoints stored in a manager. -/
def stored (cm : Manager F) : List (DataPoint F) := cm.centroids.flatMap (fun c => c.dps)

/-- A search that reports every vector of a pool of the target's dimension when asked for as many. -/
def FindsAll (s : Search F) : Prop :=
  ∀ t (pool : List (List F)) r, (∀ v ∈ pool, v.length = t.length) → s t pool pool.length = .ok r → ∀ i < pool.length, i ∈ r

/-- One of the four library searches. -/
def IsPrefab (s : Search F) : Prop := s = knnCos ∨ s = kfnCos ∨ s = knnEuc ∨ s = kfnEuc

/-- All datapoints stored in the manager. -/
def ManagerWorld.stored (w : ManagerWorld F) : List (DataPoint F) := w.cm.centroids.flatMap (fun c => c.dps)

end Trypo.Spec
