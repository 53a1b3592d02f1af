import Verif.Model.Slice
import Verif.Spec.CentroidHistory

/-!
# Specification: histories of calls with all their answers, on lists and on slices

Both runners only dispatch to the modelled functions and keep every answer that was handed out.
-/

namespace Trypo.Spec

variable {F : Type} [GoFloat F]

/-- The centroids, and the answers given so far. -/
structure AnswerWorld (F : Type) where
  cs : List (Centroid F)
  answers : List (List (DataPoint F))

/-- Call `f` on centroid `self`; a call on a centroid that does not exist is no call. -/
def AnswerWorld.on (w : AnswerWorld F) (self : Nat) (f : Centroid F → Go (List (List (DataPoint F)) × Centroid F)) :
    Go (AnswerWorld F) :=
  match w.cs[self]? with
  | none => pure w
  | some c => do
    let r ← f c
    pure ⟨w.cs.set self r.2, w.answers ++ r.1⟩

/-- One call. -/
def CentroidCall.runAnswer (tk : Nat → Int) (w : AnswerWorld F) : CentroidCall F → Go (AnswerWorld F)
  | .create v cap knn kfn => do
    match (← Centroid.new v cap (some knn) (some kfn)) with
    | some c => pure { w with cs := w.cs ++ [c] }
    | none => pure w
  | .add self d => w.on self (fun c => do let r ← c.addDataPoint tk d; pure ([], r.2))
  | .drainUnordered self n => w.on self (fun c => do let r ← c.drainUnordered tk n; pure ([r.1], r.2))
  | .drainOrdered self n => w.on self (fun c => do let r ← c.drainOrdered tk n; pure ([r.1], r.2))
  | .expire self => w.on self (fun c => do let c' ← c.expire tk; pure ([], c'))
  | .memTrim self => w.on self (fun c => do let c' ← c.memTrim tk; pure ([], c'))
  | .moveVector self => w.on self (fun c => do let r ← c.moveVector tk; pure ([], r.2))
  | .knnLookup self v k drain => w.on self (fun c => do let r ← c.knnLookup tk v k drain; pure ([r.1], r.2))
  | .distribute self n receivers =>
    if self < w.cs.length then do
      let h ← Centroid.distribute tk w.cs self n (receivers.filter (· < w.cs.length))
      pure { w with cs := h }
    else pure w

/-- All calls, in order. -/
def runAnswers (tk : Nat → Int) : List (CentroidCall F) → AnswerWorld F → Go (AnswerWorld F)
  | [], w => pure w
  | o :: os, w => do
    let w' ← o.runAnswer tk w
    runAnswers tk os w'

/-- The centroids and the answers as slices. -/
structure SliceWorld (F : Type) where
  cs : List (SCentroid F)
  answers : List Slice

/-- Call `f` on centroid `self`. -/
def SliceWorld.on (w : SliceWorld F) (self : Nat) (f : SCentroid F → SGo F (List Slice × SCentroid F)) :
    SGo F (SliceWorld F) :=
  match w.cs[self]? with
  | none => pure w
  | some c => do
    let r ← f c
    pure ⟨w.cs.set self r.2, w.answers ++ r.1⟩

/-- One call. -/
def CentroidCall.runSlice (grow : Nat → Nat → Nat) (tk : Nat → Int) (w : SliceWorld F) : CentroidCall F → SGo F (SliceWorld F)
  | .create v cap knn kfn => do
    match (← SCentroid.new v cap (some knn) (some kfn)) with
    | some c => pure { w with cs := w.cs ++ [c] }
    | none => pure w
  | .add self d => w.on self (fun c => do let r ← c.addDataPoint grow tk d; pure ([], r.2))
  | .drainUnordered self n => w.on self (fun c => do let r ← c.drainUnordered grow tk n; pure ([r.1], r.2))
  | .drainOrdered self n => w.on self (fun c => do let r ← c.drainOrdered grow tk n; pure ([r.1], r.2))
  | .expire self => w.on self (fun c => do let c' ← c.expire grow tk; pure ([], c'))
  | .memTrim self => w.on self (fun c => do let c' ← c.memTrim grow tk; pure ([], c'))
  | .moveVector self => w.on self (fun c => do let r ← c.moveVector grow tk; pure ([], r.2))
  | .knnLookup self v k drain => w.on self (fun c => do let r ← c.knnLookup grow tk v k drain; pure ([r.1], r.2))
  | .distribute self n receivers =>
    if self < w.cs.length then do
      let h ← SCentroid.distribute grow tk w.cs self n (receivers.filter (· < w.cs.length))
      pure { w with cs := h }
    else pure w

/-- All calls, in order. -/
def runSlices (grow : Nat → Nat → Nat) (tk : Nat → Int) : List (CentroidCall F) → SliceWorld F → SGo F (SliceWorld F)
  | [], w => pure w
  | o :: os, w => do
    let w' ← o.runSlice grow tk w
    runSlices grow tk os w'

/-- A reply that holds the slice `s` of a centroid is written to the connection element by element, after the lock of the namespace is
released (pkg/kmeans/rpc/server.go:272-276 only stores pointers to the centroids in the reply; net/rpc encodes it when the
method has returned). Before each element other requests may run; `others` lists, for every element, the calls that run
before it is read. -/
def encodeDuring (grow : Nat → Nat → Nat) (tk : Nat → Int) (s : Slice) : List (List (CentroidCall F)) → Nat → SliceWorld F →
    SGo F (List (DataPoint F) × SliceWorld F)
  | [], _, w => pure ([], w)
  | os :: others, i, w => do
    let w' ← runSlices grow tk os w
    let d ← SGo.read s i
    let r ← encodeDuring grow tk s others (i + 1) w'
    pure (d :: r.1, r.2)

/-- After the history `os`, the centroid `self` is the answer of `NearestCentroids`; with `drain` it is removed from the manager first. The result is what the
centroid held when the lock was released, what the client receives, and what the remaining centroids hold in the end. -/
def answerDuring (grow : Nat → Nat → Nat) (tk : Nat → Int) (os : List (CentroidCall F)) (self : Nat) (drain : Bool) (others : List (List (CentroidCall F))) :
    SGo F (Option (List (DataPoint F) × List (DataPoint F) × List (List (DataPoint F)))) := do
  let w ← runSlices grow tk os ⟨[], []⟩
  match w.cs[self]? with
  | none => pure none
  | some c => do
    let held ← SGo.load c.dps
    let r ← encodeDuring grow tk c.dps others 0 (if drain then ⟨w.cs.eraseIdx self, w.answers⟩ else w)
    let after ← r.2.cs.mapM (fun c => SGo.load c.dps)
    pure (some (held, r.1, after))

/-- What a centroid holds in the memory `m`. -/
def contents (m : Mem F) (c : SCentroid F) : Centroid F := ⟨c.vec, SGo.view m c.dps, c.knn, c.kfn⟩

/-- The world of slices in the memory `m`, read as lists. -/
def SliceWorld.read (m : Mem F) (w : SliceWorld F) : AnswerWorld F := ⟨w.cs.map (contents m), w.answers.map (SGo.view m)⟩

end Trypo.Spec
