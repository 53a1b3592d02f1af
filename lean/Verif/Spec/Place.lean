import Verif.Spec.Harvest
import Mathlib.Data.List.Forall2

/-!
# Specification: where datapoints are placed
-/

namespace Trypo.Spec

variable {F : Type} [GoFloat F]

/-- Of the vectors `vecs` the one at `j` is most similar to `v`, and the first of those that are; `none` if none of them can
be compared with `v`. -/
def Nearest (v : List F) (vecs : List (List F)) : Option Nat → Prop
  | some j => ∃ s, HasScore (cosineSimilarity v) false vecs j s ∧
      ∀ i t, HasScore (cosineSimilarity v) false vecs i t → ¬ Better false t s ∧ (i < j → Better false s t)
  | none => ∀ i t, ¬ HasScore (cosineSimilarity v) false vecs i t

/-- The datapoints are placed one after the other. Each of them is added to the receiver whose vector is, at that moment,
most similar; to `self` if none can be compared. Receivers are positions in the list of all centroids concerned. -/
inductive Placing (tk : Nat → Int) (self : Nat) (receivers : List Nat) :
    List (DataPoint F) → List (Centroid F) → List (Centroid F) → Prop
  | done (h : List (Centroid F)) : Placing tk self receivers [] h h
  | near {d : DataPoint F} {ds : List (DataPoint F)} {h h' : List (Centroid F)} {vecs : List (List F)} {j i : Nat}
      {x x' : Centroid F} {q q' : Nat} : receivers.map (fun r => h[r]?.map (fun c => c.vec)) = vecs.map some →
      Nearest d.vec vecs (some j) → receivers[j]? = some i → h[i]? = some x →
      x.addDataPoint tk d q = .ok ((true, x'), q') → Placing tk self receivers ds (h.set i x') h' →
      Placing tk self receivers (d :: ds) h h'
  | back {d : DataPoint F} {ds : List (DataPoint F)} {h h' : List (Centroid F)} {vecs : List (List F)}
      {x x' : Centroid F} {q q' : Nat} : receivers.map (fun r => h[r]?.map (fun c => c.vec)) = vecs.map some →
      Nearest d.vec vecs none → h[self]? = some x →
      x.addDataPoint tk d q = .ok ((true, x'), q') → Placing tk self receivers ds (h.set self x') h' →
      Placing tk self receivers (d :: ds) h h'

/-- The centroid at `self` gives up its `n` furthest datapoints (all that can be compared, if there are fewer), and these
are placed, furthest first. -/
def Distributed (tk : Nat → Int) (receivers : List Nat) (self n : Nat) (h h' : List (Centroid F)) : Prop :=
  ∃ (c c0 : Centroid F) (out : List (DataPoint F)) (q q' : Nat), h[self]? = some c ∧
    c.drainOrdered tk n q = .ok ((out, c0), q') ∧ (out ++ c0.dps).Perm c.dps ∧
    BestOf (fun d => cosineSimilarity c.vec d.vec) true out c0.dps ∧
    out.length = min n (candidates (fun d => cosineSimilarity c.vec d.vec) true c.dps) ∧
    Placing tk self receivers out (h.set self c0) h'

/-- Centroids distribute one after the other: `(i, n)` stands for the centroid at `i` giving up `n`. -/
inductive Redistributing (tk : Nat → Int) (receivers : List Nat) :
    List (Nat × Nat) → List (Centroid F) → List (Centroid F) → Prop
  | done (h : List (Centroid F)) : Redistributing tk receivers [] h h
  | next {i n : Nat} {es : List (Nat × Nat)} {h h1 h' : List (Centroid F)} : Distributed tk receivers i n h h1 →
      Redistributing tk receivers es h1 h' → Redistributing tk receivers ((i, n) :: es) h h'

/-- Which centroids give up how many datapoints: different centroids, each at least one and not more than it has, `n`
together (all there are, if there are fewer). They take turns: no centroid that has more gives less than a later
one, or less by two than an earlier one. For `n ≤ 0` the first centroid gives one, if it has any. -/
def Portions (n : Int) (cs : List (Centroid F)) (es : List (Nat × Nat)) : Prop :=
  (es.map (fun e => e.1)).Nodup ∧ (∀ e ∈ es, ∃ c, cs[e.1]? = some c ∧ 1 ≤ e.2 ∧ e.2 ≤ c.dps.length) ∧
    (1 ≤ n → (((es.map (fun e => e.2)).sum : Nat) : Int) = min n (cs.flatMap (fun c => c.dps)).length) ∧
    (n ≤ 0 → (∀ e ∈ es, e = (0, 1)) ∧ (es = [] → ∀ c, cs[0]? = some c → c.dps = [])) ∧
    ∀ e ∈ es, ∀ (k : Nat) (c : Centroid F), cs[k]? = some c →
      ∃ v, (v = 0 ∨ (k, v) ∈ es) ∧ min c.dps.length (if k < e.1 then e.2 else e.2 - 1) ≤ v

/-- The same datapoints, in the same order; the vector is their mean as `VecMean` computes it. That of an empty centroid is
left as it is. -/
def Remeaned (c c' : Centroid F) : Prop :=
  c'.dps = c.dps ∧ (c.dps = [] → c'.vec = c.vec) ∧ (c.dps ≠ [] → vecMean (c.dps.map (fun d => d.vec)) = (c'.vec, true))

/-- Every datapoint is at the centroid whose vector is most similar to it. -/
def AtNearest (cs : List (Centroid F)) : Prop :=
  ∀ (k : Nat) (c : Centroid F) (d : DataPoint F), cs[k]? = some c → d ∈ c.dps →
    Nearest d.vec (cs.map (fun c => c.vec)) (some k)

/-- All but at most `n` datapoints are still at the centroid where they were. -/
def AllButStay (n : Nat) (before after : List (List (DataPoint F))) : Prop :=
  ∃ kept : List (List (DataPoint F)), List.Forall₂ List.Subperm kept before ∧ List.Forall₂ List.Subperm kept after ∧
    before.flatten.length ≤ kept.flatten.length + n

end Trypo.Spec
