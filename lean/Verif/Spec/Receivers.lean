import Verif.Spec.ManagerHistory
import Verif.Spec.Place
import Verif.Model.Receivers

/-!
# Specification: any mix of receivers
-/

namespace Trypo.Spec

variable {F : Type} [GoFloat F]

/-- All datapoints in a memory. -/
def inMem (mem : Arena F) : List (DataPoint F) :=
  mem.ms.flatMap (fun cm => stored cm) ++ mem.cs.flatMap (fun c => c.dps)

/-- Consistent managers and consistent centroids, with search functions keeping their contract. -/
structure Fine (mem : Arena F) : Prop where
  ms : ∀ cm ∈ mem.ms, ManagerOK cm
  cs : ∀ c ∈ mem.cs, GoodSearch c.knn ∧ GoodSearch c.kfn ∧ ∀ d ∈ c.dps, d.vec.length = c.vec.length

/-- There is something at the pointer. -/
def Points (mem : Arena F) : RRef → Prop
  | .centroid r => ∃ c, mem.getC r = some c
  | .manager m => m < mem.ms.length

/-- Adding to the receiver `r` may change the centroid `q`. -/
def Reaches (r : RRef) (q : CRef) : Prop := r = .centroid q ∨ ∃ m i, r = .manager m ∧ q = .inside m i

/-- The receiver is the manager that holds the centroid `q`. -/
def Holds (r : RRef) (q : CRef) : Prop := ∃ m i, r = .manager m ∧ q = .inside m i

/-- Pointers to centroids stay valid; what they point to keeps its search functions and its dimension. -/
structure RefsKept (mem mem' : Arena F) : Prop where
  ms : mem'.ms.length = mem.ms.length
  refs : ∀ q c, mem.getC q = some c → ∃ c', mem'.getC q = some c' ∧ c'.knn = c.knn ∧ c'.kfn = c.kfn ∧ c'.vec.length = c.vec.length

/-- The vector a receiver reports. -/
def vecAt (mem : Arena F) : RRef → Option (List F)
  | .centroid r => (mem.getC r).map (fun c => c.vec)
  | .manager m => (mem.ms[m]?).map (fun cm => cm.vec)

/-- Datapoints taken from `me` are given away one after the other. Each of them is offered to the receiver whose vector is, at that
moment, most similar. It goes back to `me` if that receiver refuses it, or if it can be compared with none of them. -/
inductive Offering (tk : Nat → Int) (me : CRef) (receivers : List RRef) : List (DataPoint F) → Arena F → Arena F → Prop
  | done (mem : Arena F) : Offering tk me receivers [] mem mem
  | taken {d : DataPoint F} {ds : List (DataPoint F)} {mem mem1 mem' : Arena F} {vecs : List (List F)} {j : Nat} {r : RRef}
      {q q' : Nat} : receivers.map (vecAt mem) = vecs.map some → Nearest d.vec vecs (some j) → receivers[j]? = some r →
      mem.addTo tk r d q = .ok ((true, mem1), q') → Offering tk me receivers ds mem1 mem' → Offering tk me receivers (d :: ds) mem mem'
  | refused {d : DataPoint F} {ds : List (DataPoint F)} {mem mem1 mem' : Arena F} {vecs : List (List F)} {j : Nat} {r : RRef}
      {q q1 q2 : Nat} {ok : Bool} : receivers.map (vecAt mem) = vecs.map some → Nearest d.vec vecs (some j) → receivers[j]? = some r →
      mem.addTo tk r d q = .ok ((false, mem), q1) → mem.addTo tk (.centroid me) d q1 = .ok ((ok, mem1), q2) →
      Offering tk me receivers ds mem1 mem' → Offering tk me receivers (d :: ds) mem mem'
  | alone {d : DataPoint F} {ds : List (DataPoint F)} {mem mem1 mem' : Arena F} {vecs : List (List F)}
      {q q' : Nat} {ok : Bool} : receivers.map (vecAt mem) = vecs.map some → Nearest d.vec vecs none →
      mem.addTo tk (.centroid me) d q = .ok ((ok, mem1), q') → Offering tk me receivers ds mem1 mem' →
      Offering tk me receivers (d :: ds) mem mem'

/-- The centroid `me` gives up the `n` datapoints `DrainOrdered` chooses and they are offered. -/
def Gives (tk : Nat → Int) (receivers : List RRef) (me : CRef) (n : Nat) (mem mem' : Arena F) : Prop :=
  ∃ (c c0 : Centroid F) (out : List (DataPoint F)) (q q' : Nat), mem.getC me = some c ∧
    c.drainOrdered tk n q = .ok ((out, c0), q') ∧ Offering tk me receivers out (mem.setC me c0) mem'

/-- Centroids of the manager `m` give one after the other; `(i, n)` stands for the `i`-th giving up `n`. -/
inductive GivingInTurn (tk : Nat → Int) (receivers : List RRef) (m : Nat) : List (Nat × Nat) → Arena F → Arena F → Prop
  | done (mem : Arena F) : GivingInTurn tk receivers m [] mem mem
  | next {i n : Nat} {es : List (Nat × Nat)} {mem mem1 mem' : Arena F} : Gives tk receivers (.inside m i) n mem mem1 →
      GivingInTurn tk receivers m es mem1 mem' → GivingInTurn tk receivers m ((i, n) :: es) mem mem'

end Trypo.Spec
