import Verif.Spec.Core

/-!
# Specification: what a query can find
-/

namespace Trypo.Spec

variable {F : Type} [GoFloat F]

/-- `u` has a cosine similarity to `v` that can be compared: same dimension, and the similarity is not NaN. -/
def sees (v u : List F) : Bool := isCandidate (cosineSimilarity v) false u

/-- The datapoints of `m` that `v` can be compared with and that lie in centroids it can be compared with. -/
def visible (v : List F) (m : Manager F) : List (DataPoint F) :=
  (m.centroids.filter (fun c => sees v c.vec)).flatMap (fun c => c.dps.filter (fun d => sees v d.vec))

/-- The same at several nodes. -/
def visibleAt (v : List F) (w : World F) (nodes : List Addr) (ns : NS) : List (DataPoint F) :=
  nodes.flatMap (fun a => match w.get a ns with | some m => visible v m | none => [])

/-- The nodes among `nodes` whose manager has a vector that `v` can be compared with. -/
def seenNodes (v : List F) (w : World F) (nodes : List Addr) (ns : NS) : List Addr :=
  nodes.filter (fun a => match w.get a ns with | some m => sees v m.vec | none => false)

/-- `n` exceeds the number of datapoints at all nodes together by at least the number of centroids of every node. -/
def Enough (w : World F) (nodes : List Addr) (ns : NS) (n : Int) : Prop :=
  0 ≤ n ∧ ∀ a ∈ nodes, ∀ m, w.get a ns = some m → (((storedAt w nodes ns).length + m.centroids.length : Nat) : Int) ≤ n

/-- The answer to a request is all of `all`; they have been removed if `drain`, and nothing else has changed. -/
structure GotAll (D : NS → Nat) (ns : NS) (drain : Bool) (nodes : List Addr) (all : List (DataPoint F)) (w w' : World F)
    (out : List (DataPoint F)) : Prop where
  ok : WorldOK D w'
  found : out.Perm all
  rest : (storedAt w' nodes ns ++ if drain then all else []).Perm (storedAt w nodes ns)
  others : ∀ b ns', (b ∉ nodes ∨ ns' ≠ ns) → w'.get b ns' = w.get b ns'

end Trypo.Spec
