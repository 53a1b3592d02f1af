import Verif.Spec.Complete

/-!
# Specification: the order in which a query collects its answer
-/

namespace Trypo.Spec

variable {F : Type} [GoFloat F]

/-- `part` is the `k` best of `l` (or all that can be compared, if there are fewer), best first. -/
def TakesBest {α : Type} (score : α → Option F) (asc : Bool) (k : Nat) (l part : List α) : Prop :=
  ∃ rest, (part ++ rest).Perm l ∧ BestOf score asc part rest ∧ part.length = min k (candidates score asc l)

/-- The sources are asked in turn until `k` have been collected. `give k s part`: the source `s`, asked for `k`, gives `part`. -/
inductive InTurn {σ α : Type} (give : Nat → σ → List α → Prop) : Nat → List σ → List α → Prop
  | none (k : Nat) : InTurn give k [] []
  | enough (ss : List σ) : InTurn give 0 ss []
  | next {k : Nat} {s : σ} {ss : List σ} {part out : List α} : give k s part → InTurn give (k - part.length) ss out →
      InTurn give k (s :: ss) (part ++ out)

/-- A list of datapoints, asked for `k` between the times `t` and `t'`, gives the `k` best of those that are not expired. -/
def ListGives (score : DataPoint F → Option F) (t t' : Int) (k : Nat) (l part : List (DataPoint F)) : Prop :=
  ∃ live, Survivors t t' l live ∧ TakesBest score false k live part

/-- A manager, asked for `k` between the times `t` and `t'`: the `k` centroids that are nearest are asked in turn, nearest first. -/
def ManagerGives (v : List F) (t t' : Int) (k : Nat) (m : Manager F) (part : List (DataPoint F)) : Prop :=
  ∃ (near : List Nat) (cs : List (Centroid F)), KBest (cosineSimilarity v) false (m.centroids.map (fun c => c.vec)) k near ∧
    near.map (fun i => m.centroids[i]?) = cs.map some ∧
    InTurn (ListGives (fun d => cosineSimilarity v d.vec) t t') k (cs.map (fun c => c.dps)) part

/-- A node gives nothing if the network fails or it does not have the namespace. -/
def NodeGives (env : Env) (v : List F) (t t' : Int) (ns : NS) (w : World F) (k : Nat) (a : Addr) (part : List (DataPoint F)) : Prop :=
  (part = [] ∧ ∃ q, env.up q a = false ∨ env.back q a = false) ∨
  (match w.get a ns with
   | some m => ManagerGives v t t' k m part
   | none => part = [])

end Trypo.Spec
