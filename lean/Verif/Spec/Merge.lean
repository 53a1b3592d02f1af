import Verif.Spec.Place
import Mathlib.Data.List.ReduceOption

/-!
# Specification: what merging does

Merging is described on a list of places. Each place starts with a centroid; a place whose centroid was merged into another is
empty.
-/

namespace Trypo.Spec

variable {F : Type} [GoFloat F]

/-- At the place `k` there is a centroid, and its vector compares with `v` with the score `t`. -/
def Scored (f : List F → List F → Option F) (asc : Bool) (v : List F) (s : List (Option (Centroid F))) (k : Nat) (t : F) : Prop :=
  ∃ o : Centroid F, s[k]? = some (some o) ∧ f v o.vec = some t ∧ Comparable asc t

/-- `js` are places of centroids other than the one at `i`, the nearest to `v` first; none that is left out is nearer. -/
structure NearestFirst (f : List F → List F → Option F) (asc : Bool) (v : List F) (s : List (Option (Centroid F))) (i : Nat)
    (js : List Nat) : Prop where
  nodup : js.Nodup
  valid : ∀ j ∈ js, j ≠ i ∧ ∃ t, Scored f asc v s j t
  sorted : js.Pairwise (fun a b => ∀ x y, Scored f asc v s a x → Scored f asc v s b y → ¬ Better asc y x)
  best : ∀ j ∈ js, ∀ k, k ≠ i → k ∉ js → ∀ x y, Scored f asc v s j x → Scored f asc v s k y → ¬ Better asc y x

/-- The datapoints `ds` are added one after the other. -/
inductive Adding (tk : Nat → Int) : List (DataPoint F) → Centroid F → Centroid F → Prop
  | done (c : Centroid F) : Adding tk [] c c
  | next {d : DataPoint F} {ds : List (DataPoint F)} {c c1 c' : Centroid F} {q q' : Nat} :
      c.addDataPoint tk d q = .ok ((true, c1), q') → Adding tk ds c1 c' → Adding tk (d :: ds) c c'

/-- The centroid takes all the datapoints of those at the places `js`, one place after the other. Before each, `merge` holds
of it. -/
inductive Absorbing (tk : Nat → Int) (merge : Centroid F → Bool) (s : List (Option (Centroid F))) :
    List Nat → Centroid F → Centroid F → Prop
  | done (c : Centroid F) : Absorbing tk merge s [] c c
  | next {j : Nat} {js : List Nat} {o c c1 c' : Centroid F} : merge c = true → s[j]? = some (some o) →
      Adding tk o.dps c c1 → Absorbing tk merge s js c1 c' → Absorbing tk merge s (j :: js) c c'

/-- The turn of the place `i`. If its centroid is still there and `merge` holds of it, it absorbs the others, those nearest to
the vector it starts with first, until `merge` does not hold of it or none is left that can be compared. -/
inductive MergeTurn (tk : Nat → Int) (merge : Centroid F → Bool) (f : List F → List F → Option F) (asc : Bool) (i : Nat) :
    List (Option (Centroid F)) → List (Option (Centroid F)) → Prop
  | gone {s : List (Option (Centroid F))} : s[i]? = some none → MergeTurn tk merge f asc i s s
  | fine {s : List (Option (Centroid F))} {c : Centroid F} : s[i]? = some (some c) → merge c = false →
      MergeTurn tk merge f asc i s s
  | absorb {s s' : List (Option (Centroid F))} {c c' : Centroid F} {js : List Nat} : s[i]? = some (some c) → merge c = true →
      NearestFirst f asc c.vec s i js → Absorbing tk merge s js c c' →
      (merge c' = false ∨ ∀ k, k ≠ i → k ∉ js → ∀ t, ¬ Scored f asc c.vec s k t) →
      s'.length = s.length → s'[i]? = some (some c') → (∀ j ∈ js, s'[j]? = some none) →
      (∀ k, k ≠ i → k ∉ js → s'[k]? = s[k]?) → MergeTurn tk merge f asc i s s'

/-- The places have their turns in order. -/
inductive MergeTurns (tk : Nat → Int) (merge : Centroid F → Bool) (f : List F → List F → Option F) (asc : Bool) :
    List Nat → List (Option (Centroid F)) → List (Option (Centroid F)) → Prop
  | done (s : List (Option (Centroid F))) : MergeTurns tk merge f asc [] s s
  | next {i : Nat} {is : List Nat} {s s1 s' : List (Option (Centroid F))} : MergeTurn tk merge f asc i s s1 →
      MergeTurns tk merge f asc is s1 s' → MergeTurns tk merge f asc (i :: is) s s'

/-- `cs'` are the centroids that are left of `cs`, in their order. -/
def Coalesced (tk : Nat → Int) (merge : Centroid F → Bool) (f : List F → List F → Option F) (asc : Bool)
    (cs cs' : List (Centroid F)) : Prop :=
  ∃ s, MergeTurns tk merge f asc (List.range cs.length) (cs.map some) s ∧ cs' = s.reduceOption

end Trypo.Spec
