import Verif.Spec.Nodes

/-!
# Specification: putting and getting datapoints
-/

namespace Trypo.Spec

variable {F : Type} [GoFloat F]

/-- The network failed to reach `a` at some time. -/
def Down (env : Env) (a : Addr) : Prop := ∃ p, env.up p a = false

/-- The manager does not accept `d`: it has centroids, but the search finds none for `d`, or `d` has the wrong dimension. -/
def Refuses (n : Nat) (m : Manager F) (d : DataPoint F) : Prop :=
  m.centroids ≠ [] ∧ (knnCos d.vec (m.centroids.map (fun c => c.vec)) 1 = .ok [] ∨ d.vec.length ≠ n)

/-- Node `a` has acknowledged `d`: it holds `d` and what it held before (minus what has expired at `t`), or it refused `d`
and is unchanged. No other node or namespace has changed. -/
structure Acked (t : Int) (D : NS → Nat) (a : Addr) (ns : NS) (d : DataPoint F) (w w' : World F) : Prop where
  node : ∃ m', w'.get a ns = some m' ∧ (Conserved t (d :: storedAt w [a] ns) (stored m') [] ∨
    (w.get a ns = some m' ∧ Refuses (D ns) m' d))
  others : ∀ b ns', (b ≠ a ∨ ns' ≠ ns) → w'.get b ns' = w.get b ns'

/-- The nodes of `as` were tried in order until the first one that could be reached, which acknowledged `d`; or none could
be reached, and then nothing has changed. -/
def PutInOrder (env : Env) (t : Int) (D : NS → Nat) (ns : NS) (d : DataPoint F) (as : List Addr) (w w' : World F) (ok : Bool) : Prop :=
  (ok = false ∧ w' = w ∧ ∀ a ∈ as, Down env a) ∨
  (ok = true ∧ ∃ pre a post, as = pre ++ a :: post ∧ (∀ b ∈ pre, Down env b) ∧ Acked t D a ns d w w')

/-- The answer `out` to a request for `n` datapoints at the nodes `as`, asked at `t0` and answered at `t`. -/
structure GotFrom (env : Env) (t0 t : Int) (D : NS → Nat) (ns : NS) (n : Int) (drain : Bool) (as : List Addr) (w w' : World F)
    (out : List (DataPoint F)) : Prop where
  ok : WorldOK D w'
  count : (out.length : Int) ≤ n
  /-- everything in the answer was stored and had not expired -/
  found : ∀ d ∈ out, ¬ Dead t0 d ∧ ∃ a ∈ as, d ∈ storedAt w [a] ns
  others : ∀ b ns', (b ∉ as ∨ ns' ≠ ns) → w'.get b ns' = w.get b ns'
  kept : drain = false → ∀ nodes : List Addr, nodes.Nodup → (∀ a ∈ as, a ∈ nodes) →
    Conserved t (storedAt w nodes ns) (storedAt w' nodes ns) []
  drained : drain = true → NoLostReplies env → ∀ nodes : List Addr, nodes.Nodup → (∀ a ∈ as, a ∈ nodes) →
    Conserved t (storedAt w nodes ns) (storedAt w' nodes ns) out

/-- What the nodes answer in the fast variants: the vectors of their managers. -/
abbrev FastAnswer (env : Env) (w : World F) (ns : NS) (q : Addr × Option (List F)) : Prop :=
  Heard env q.1 ((w.get q.1 ns).map (fun m => m.vec)) q.2

/-- What the nodes answer in the accurate variants: the vectors of their centroids that are nearest to `v`. -/
abbrev AccurateAnswer (env : Env) (w : World F) (ns : NS) (v : List F) (q : Addr × Option (List F)) : Prop :=
  ∃ val, (w.get q.1 ns = none ∧ val = none ∨ ∃ m u, w.get q.1 ns = some m ∧ val = some u ∧ NearestVec v m u) ∧ Heard env q.1 val q.2

end Trypo.Spec
