import Verif.Spec.Slice

/-!
# Specification: how the encoder reads a centroid

pkg/kmeans/rpc/server.go:272-276 stores pointers to centroids in the reply and releases the lock of the namespace; net/rpc encodes the
reply afterwards with encoding/gob. The encoder reaches `Centroid.DataPoints` by reflection, as a variable and not as a copy of it: it
asks the variable for its length once (`slice.Len()`, encode.go `encOpFor`) and then, for every index below, asks the variable again for
the element (`value.Index(i)`, encode.go `encodeArray`), which panics if the slice has become shorter (reflect: slice index out of
range). Nothing recovers that panic: gob passes on whatever is not an error of its own, and net/rpc encodes in a goroutine of its own.
(`Spec/Slice.lean`, `encodeDuring`, is the kinder encoder that copies the variable first.)

Simplification: an element is read at once; the calls of other requests are not interleaved with each other.
-/

namespace Trypo.Spec

variable {F : Type} [GoFloat F]

/-- The variable `DataPoints` that the reply points to: that of a centroid of the manager, or of one that the manager has given up. -/
inductive Target where
  | live (self : Nat)
  | given (s : Slice)

/-- The slice that is in the variable now. -/
def Target.get (w : SliceWorld F) : Target → Option Slice
  | .live self => (w.cs[self]?).map (fun c => c.dps)
  | .given s => some s

/-- Write the elements from `i` on; `sched i` are the calls that other requests make before element `i` is read. -/
def encodeFrom (grow : Nat → Nat → Nat) (tk : Nat → Int) (t : Target) (sched : Nat → List (CentroidCall F)) : Nat → Nat → SliceWorld F →
    SGo F (List (DataPoint F))
  | 0, _, _ => pure []
  | n + 1, i, w => do
    let w' ← runSlices grow tk (sched i) w
    match t.get w' with
    | none => SGo.lift (Go.panic .index)
    | some s => do
      let d ← SGo.read s i
      let ds ← encodeFrom grow tk t sched n (i + 1) w'
      pure (d :: ds)

/-- What a centroid held when the lock was released, what it held when the encoder came to it, and what the client gets. -/
structure Reply (F : Type) where
  held : List (DataPoint F)
  begun : List (DataPoint F)
  reply : List (DataPoint F)

/-- After the history `os`, the centroid `self` is the answer of `NearestCentroids`; with `drain` it is removed from the manager. Then the
lock is released, other requests make the calls `first`, and the encoder comes to the centroid. -/
def replyDuring (grow : Nat → Nat → Nat) (tk : Nat → Int) (os : List (CentroidCall F)) (self : Nat) (drain : Bool)
    (first : List (CentroidCall F)) (sched : Nat → List (CentroidCall F)) : SGo F (Option (Reply F)) := do
  let w ← runSlices grow tk os ⟨[], []⟩
  match w.cs[self]? with
  | none => pure none
  | some c => do
    let held ← SGo.load c.dps
    let t : Target := if drain then .given c.dps else .live self
    let w' ← runSlices grow tk first (if drain then ⟨w.cs.eraseIdx self, w.answers⟩ else w)
    match t.get w' with
    | none => SGo.lift (Go.panic .index)
    | some s => do
      let begun ← SGo.load s
      let ds ← encodeFrom grow tk t sched begun.length 0 w'
      pure (some ⟨held, begun, ds⟩)

/-- The call takes nothing out of centroid `i`. (`MoveVector` and a lookup without draining do: they throw out what has expired.) -/
def CentroidCall.spares (i : Nat) : CentroidCall F → Prop
  | .create .. => True
  | .add .. => True
  | .drainUnordered self _ => self ≠ i
  | .drainOrdered self _ => self ≠ i
  | .expire self => self ≠ i
  | .memTrim self => self ≠ i
  | .moveVector self => self ≠ i
  | .knnLookup self _ _ _ => self ≠ i
  | .distribute self _ _ => self ≠ i

end Trypo.Spec
