import Verif.Model.Centroid

/-!
# Specification: histories of API calls on a set of centroids

A history is a list of calls. `run` only dispatches to the modelled functions and collects what was accepted and what
was handed out.
-/

namespace Trypo.Spec

variable {F : Type} [GoFloat F]

/-- A call on one of the centroids created so far (numbered in order of creation). -/
inductive CentroidCall (F : Type) where
  | create (initVec : List F) (initCap : Int) (knn kfn : Search F)
  | add (self : Nat) (d : DataPoint F)
  | drainUnordered (self : Nat) (n : Int)
  | drainOrdered (self : Nat) (n : Int)
  | expire (self : Nat)
  | memTrim (self : Nat)
  | moveVector (self : Nat)
  | knnLookup (self : Nat) (v : List F) (k : Int) (drain : Bool)
  | distribute (self : Nat) (n : Int) (receivers : List Nat)

/-- What a history has done so far: the centroids, all datapoints for which `AddDataPoint` answered true, all
datapoints handed out by draining calls. -/
structure CentroidWorld (F : Type) where
  cs : List (Centroid F)
  accepted : List (DataPoint F)
  out : List (DataPoint F)

/-- Call `f` on centroid `self`; a call on a centroid that does not exist is no call. -/
def CentroidWorld.on (w : CentroidWorld F) (self : Nat) (f : Centroid F → Go (List (DataPoint F) × Centroid F)) :
    Go (CentroidWorld F) :=
  match w.cs[self]? with
  | none => pure w
  | some c => do
    let r ← f c
    pure { w with cs := w.cs.set self r.2, out := w.out ++ r.1 }

/-- One call. -/
def CentroidCall.run (tk : Nat → Int) (w : CentroidWorld F) : CentroidCall F → Go (CentroidWorld F)
  | .create v cap knn kfn => do
    match (← Centroid.new v cap (some knn) (some kfn)) with
    | some c => pure { w with cs := w.cs ++ [c] }
    | none => pure w
  | .add self d =>
    match w.cs[self]? with
    | none => pure w
    | some c => do
      let r ← c.addDataPoint tk d
      pure { w with cs := w.cs.set self r.2, accepted := if r.1 then d :: w.accepted else w.accepted }
  | .drainUnordered self n => w.on self (fun c => c.drainUnordered tk n)
  | .drainOrdered self n => w.on self (fun c => c.drainOrdered tk n)
  | .expire self => w.on self (fun c => do let c' ← c.expire tk; pure ([], c'))
  | .memTrim self => w.on self (fun c => do let c' ← c.memTrim tk; pure ([], c'))
  | .moveVector self => w.on self (fun c => do let r ← c.moveVector tk; pure ([], r.2))
  | .knnLookup self v k drain => w.on self (fun c => do
      let r ← c.knnLookup tk v k drain
      pure (if drain then r.1 else [], r.2))
  | .distribute self n receivers =>
    if self < w.cs.length then do
      let h ← Centroid.distribute tk w.cs self n (receivers.filter (· < w.cs.length))
      pure { w with cs := h }
    else pure w

/-- All calls, in order. -/
def runCentroidCalls (tk : Nat → Int) : List (CentroidCall F) → CentroidWorld F → Go (CentroidWorld F)
  | [], w => pure w
  | o :: os, w => do
    let w' ← o.run tk w
    runCentroidCalls tk os w'

/-- Counts are not negative. -/
def CentroidCall.nonneg : CentroidCall F → Prop
  | .create _ cap _ _ => 0 ≤ cap
  | .drainUnordered _ n => 0 ≤ n
  | .drainOrdered _ n => 0 ≤ n
  | .knnLookup _ _ k _ => 0 ≤ k
  | .distribute _ n _ => 0 ≤ n
  | _ => True

/-- Not a call of `MemTrim`. -/
def CentroidCall.notTrim : CentroidCall F → Prop
  | .memTrim _ => False
  | _ => True

/-- A search function keeping its contract: for `k ≥ 0` it returns at most `k` distinct indexes into the pool. -/
def GoodSearch (s : Search F) : Prop :=
  ∀ t pool (k : Int), 0 ≤ k → ∃ r, s t pool k = .ok r ∧ r.Nodup ∧ (∀ i ∈ r, i < pool.length) ∧ (r.length : Int) ≤ k

/-- Centroids are created with search functions keeping the contract. -/
def CentroidCall.goodSearch : CentroidCall F → Prop
  | .create _ _ knn kfn => GoodSearch knn ∧ GoodSearch kfn
  | _ => True

/-- All datapoints stored in the centroids. -/
def CentroidWorld.stored (w : CentroidWorld F) : List (DataPoint F) := w.cs.flatMap (fun c => c.dps)

end Trypo.Spec
