import Verif.Spec.Core
import Verif.Spec.Balance

/-!
# Specification: distributing datapoints to other nodes
-/

namespace Trypo.Spec

variable {F : Type} [GoFloat F]

/-- Node `a` hands out the datapoints one after another: for each one, nodes are chosen (`choice`, given the nodes as they are then) and
tried in order until the first one that can be reached, which acknowledges it; if none can be reached, `a` itself adds it again. -/
inductive Handed (env : Env) (t : Int) (D : NS → Nat) (a : Addr) (ns : NS) (choice : World F → DataPoint F → List Addr → Prop) :
    List (DataPoint F) → World F → World F → Prop
  | nil {w : World F} : Handed env t D a ns choice [] w w
  | sent {d : DataPoint F} {ds : List (DataPoint F)} {w w1 w2 : World F} {as : List Addr} (hc : choice w d as)
      (h : PutInOrder env t D ns d as w w1 true) (rest : Handed env t D a ns choice ds w1 w2) : Handed env t D a ns choice (d :: ds) w w2
  | kept {d : DataPoint F} {ds : List (DataPoint F)} {w w1 w2 : World F} {as : List Addr} (hc : choice w d as)
      (hd : ∀ b ∈ as, Down env b) (h : Acked t D a ns d w w1) (rest : Handed env t D a ns choice ds w1 w2) :
      Handed env t D a ns choice (d :: ds) w w2

/-- Taking `dps` out of node `a`: at most `n` of them (at least one may be taken), all stored there and not expired at `t0`. The node's
manager has done what `DrainOrdered(n)` does, for some iteration order of the map; nothing else has changed. -/
structure TakenOut (env : Env) (t0 t : Int) (a : Addr) (ns : NS) (n : Int) (m : Manager F) (dps : List (DataPoint F)) (w w' : World F) :
    Prop where
  few : (dps.length : Int) ≤ max n 1
  live : ∀ d ∈ dps, ¬ Dead t0 d
  node : ∃ m', w'.get a ns = some m' ∧ Conserved t (stored m) (stored m') dps ∧
    ∃ ord q q', (∀ l, (ord l).Perm l) ∧ m.drainOrdered env.tk ord n q = .ok ((dps, m'), q')
  others : ∀ b ns', (b ≠ a ∨ ns' ≠ ns) → w'.get b ns' = w.get b ns'

/-- The choice of nodes in the fast variant: the nodes answered once for all datapoints. -/
def fastChoice (answers : List (Addr × Option (List F))) : World F → DataPoint F → List Addr → Prop :=
  fun _ d as => BestFit (cosineSimilarity d.vec) false answers as

/-- The choice of nodes in the accurate variant: the nodes are asked again for every datapoint. -/
def accurateChoice (env : Env) (ns : NS) (addrs : List Addr) : World F → DataPoint F → List Addr → Prop :=
  fun w d as => ∃ answers, (answers.map (fun q => q.1)).Perm addrs ∧ (∀ q ∈ answers, AccurateAnswer env w ns d.vec q) ∧
    BestFit (cosineSimilarity d.vec) false answers as

/-- What `DistributeDataPointsFast` of node `a`, where the manager was `m`, does to the nodes. -/
def DistributedFast (env : Env) (t0 t : Int) (D : NS → Nat) (a : Addr) (ns : NS) (n : Int) (addrs : List Addr) (m : Manager F)
    (w w' : World F) : Prop :=
  ∃ dps w1, TakenOut env t0 t a ns n m dps w w1 ∧ (((dps = [] ∨ addrs = []) ∧ w' = w1) ∨
    ∃ answers, (answers.map (fun q => q.1)).Perm addrs ∧ (∀ q ∈ answers, FastAnswer env w1 ns q) ∧
      Handed env t D a ns (fastChoice answers) dps w1 w')

/-- What `DistributeDataPointsAccurate` of node `a`, where the manager was `m`, does to the nodes. -/
def DistributedAccurate (env : Env) (t0 t : Int) (D : NS → Nat) (a : Addr) (ns : NS) (n : Int) (addrs : List Addr) (m : Manager F)
    (w w' : World F) : Prop :=
  ∃ dps w1, TakenOut env t0 t a ns n m dps w w1 ∧ (((dps = [] ∨ addrs = []) ∧ w' = w1) ∨
    Handed env t D a ns (accurateChoice env ns addrs) dps w1 w')

/-- What is heard of a node when it is asked for its namespaces: all of them, each one once, or nothing if the network failed. -/
def HeardNames (env : Env) (w : World F) (r : Addr × List NS) : Prop :=
  r.2.Nodup ∧ ((∀ ns, ns ∈ r.2 ↔ w.get r.1 ns ≠ none) ∨ r.2 = [] ∧ ∃ q, env.up q r.1 = false ∨ env.back q r.1 = false)

/-- One round after another, one per namespace: all nodes are asked for their namespaces; then either the local node cannot be reached
and nothing happens, or it distributes to those nodes that reported the namespace. -/
inductive Rounds (env : Env) (loc : Addr) (remotes : List Addr) (round : NS → List Addr → World F → World F → Prop) :
    List NS → World F → World F → Prop
  | nil {w : World F} : Rounds env loc remotes round [] w w
  | cons {ns : NS} {names : List NS} {w w1 w2 : World F} {replies : List (Addr × List NS)} (ha : replies.map (fun r => r.1) = remotes)
      (hr : ∀ r ∈ replies, HeardNames env w r) (h : (w1 = w ∧ Down env loc) ∨ round ns (reporters replies ns) w w1)
      (rest : Rounds env loc remotes round names w1 w2) : Rounds env loc remotes round (ns :: names) w w2

/-- A round of the fast variant, between the times of the events `p` and `p'`. -/
def fastRound (env : Env) (D : NS → Nat) (loc : Addr) (n : Int) (p p' : Nat) (ns : NS) (addrs : List Addr) (w w' : World F) : Prop :=
  ∃ q q', p ≤ q ∧ q ≤ q' ∧ q' ≤ p' ∧ ∃ m, w.get loc ns = some m ∧ DistributedFast env (env.tk q) (env.tk q') D loc ns n addrs m w w'

/-- A round of the accurate variant, between the times of the events `p` and `p'`. -/
def accurateRound (env : Env) (D : NS → Nat) (loc : Addr) (n : Int) (p p' : Nat) (ns : NS) (addrs : List Addr) (w w' : World F) : Prop :=
  ∃ q q', p ≤ q ∧ q ≤ q' ∧ q' ≤ p' ∧ ∃ m, w.get loc ns = some m ∧ DistributedAccurate env (env.tk q) (env.tk q') D loc ns n addrs m w w'

end Trypo.Spec
