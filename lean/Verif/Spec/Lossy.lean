import Verif.Spec.Distribute

/-!
# Specification: what lost replies can do

A reply is lost when the request was handled but the caller does not hear of it.
-/

namespace Trypo.Spec

variable {F : Type} [GoFloat F]

/-- At some time a reply of `a` was lost. -/
def Unheard (env : Env) (a : Addr) : Prop := ∃ p, env.back p a = false

/-- The nodes are tried in order. A node that could not be reached is passed over, and so is one that took `d` but whose reply was lost
(these are the nodes `silent`); the first one that is heard to acknowledge ends the search. `ok` tells whether there was one. -/
inductive PutTried (env : Env) (t : Int) (D : NS → Nat) (ns : NS) (d : DataPoint F) :
    List Addr → World F → World F → List Addr → Bool → Prop
  | over {w : World F} : PutTried env t D ns d [] w w [] false
  | down {a : Addr} {as : List Addr} {w w' : World F} {silent : List Addr} {ok : Bool} (h : Down env a)
      (rest : PutTried env t D ns d as w w' silent ok) : PutTried env t D ns d (a :: as) w w' silent ok
  | unheard {a : Addr} {as : List Addr} {w w1 w' : World F} {silent : List Addr} {ok : Bool} (hw : WorldOK D w) (h : Unheard env a)
      (hk : Acked t D a ns d w w1) (rest : PutTried env t D ns d as w1 w' silent ok) : PutTried env t D ns d (a :: as) w w' (a :: silent) ok
  | acked {a : Addr} {as : List Addr} {w w' : World F} (hw : WorldOK D w) (h : Acked t D a ns d w w') :
      PutTried env t D ns d (a :: as) w w' [] true

/-- What a put of `d` has done to the nodes: there are `k` new copies of `d`, at most one for the acknowledgement and one for every node
in `silent`, whose replies were lost. Everything else is where it was, except what has expired. -/
structure PutCopies (env : Env) (t : Int) (D : NS → Nat) (ns : NS) (d : DataPoint F) (as : List Addr) (w w' : World F) (ok : Bool) :
    Prop where
  copies : ∃ (silent : List Addr) (k : Nat), silent.Sublist as ∧ (∀ a ∈ silent, Unheard env a) ∧ k ≤ silent.length + ok.toNat ∧
    ∀ nodes : List Addr, nodes.Nodup → (∀ a ∈ as, a ∈ nodes) →
      Conserved t (List.replicate k d ++ storedAt w nodes ns) (storedAt w' nodes ns) []
  /-- acknowledged, it is stored, unless it was refused or has expired -/
  kept : ok = true → Dead t d ∨ ∃ a ∈ as, d ∈ storedAt w' [a] ns ∨ ∃ m, w'.get a ns = some m ∧ Refuses (D ns) m d
  /-- nothing acknowledged: no node could be reached and heard -/
  failed : ok = false → ∀ a ∈ as, Down env a ∨ Unheard env a
  others : ∀ b ns', (b ∉ as ∨ ns' ≠ ns) → w'.get b ns' = w.get b ns'

/-- The answer `out` to a draining request for `n` datapoints at the nodes `as`. What has left the nodes is in the answer, or it was in
a lost reply of one of the nodes in `silent`: at most `n` datapoints for each. -/
def DrainedFrom (env : Env) (t : Int) (ns : NS) (n : Int) (as : List Addr) (w w' : World F) (out : List (DataPoint F)) : Prop :=
  ∃ (silent : List Addr) (lost : List (DataPoint F)), silent.Sublist as ∧ (∀ a ∈ silent, Unheard env a) ∧
    (lost.length : Int) ≤ n * silent.length ∧
    ∀ nodes : List Addr, nodes.Nodup → (∀ a ∈ as, a ∈ nodes) → Conserved t (storedAt w nodes ns) (storedAt w' nodes ns) (out ++ lost)

/-- Node `a` hands out the datapoints one after another, each to chosen nodes tried in order, and adds it again itself if no
acknowledgement was heard. `silent` are the nodes that took something without being heard, one entry for each time. -/
inductive HandedOut (env : Env) (t : Int) (D : NS → Nat) (a : Addr) (ns : NS) (choice : World F → DataPoint F → List Addr → Prop) :
    List (DataPoint F) → World F → World F → List Addr → Prop
  | nil {w : World F} : HandedOut env t D a ns choice [] w w []
  | sent {d : DataPoint F} {ds : List (DataPoint F)} {w w1 w2 : World F} {as s s' : List Addr} (hc : choice w d as)
      (h : PutTried env t D ns d as w w1 s true) (rest : HandedOut env t D a ns choice ds w1 w2 s') :
      HandedOut env t D a ns choice (d :: ds) w w2 (s ++ s')
  | kept {d : DataPoint F} {ds : List (DataPoint F)} {w w1 w2 w3 : World F} {as s s' : List Addr} (hc : choice w d as)
      (hd : PutTried env t D ns d as w w1 s false) (hw : WorldOK D w1) (h : Acked t D a ns d w1 w2)
      (rest : HandedOut env t D a ns choice ds w2 w3 s') :
      HandedOut env t D a ns choice (d :: ds) w w3 (s ++ s')

/-- What `DistributeDataPointsFast` of node `a`, where the manager was `m`, does to the nodes. -/
def HandedOutFast (env : Env) (t0 t : Int) (D : NS → Nat) (a : Addr) (ns : NS) (n : Int) (addrs : List Addr) (m : Manager F)
    (w w' : World F) : Prop :=
  ∃ dps w1, TakenOut env t0 t a ns n m dps w w1 ∧ (((dps = [] ∨ addrs = []) ∧ w' = w1) ∨
    ∃ answers silent, (answers.map (fun q => q.1)).Perm addrs ∧ (∀ q ∈ answers, FastAnswer env w1 ns q) ∧
      HandedOut env t D a ns (fastChoice answers) dps w1 w' silent)

/-- What `DistributeDataPointsAccurate` of node `a`, where the manager was `m`, does to the nodes. -/
def HandedOutAccurate (env : Env) (t0 t : Int) (D : NS → Nat) (a : Addr) (ns : NS) (n : Int) (addrs : List Addr) (m : Manager F)
    (w w' : World F) : Prop :=
  ∃ dps w1, TakenOut env t0 t a ns n m dps w w1 ∧ (((dps = [] ∨ addrs = []) ∧ w' = w1) ∨
    ∃ silent, HandedOut env t D a ns (accurateChoice env ns addrs) dps w1 w' silent)

/-- A manager of some node, in some state of the nodes, refuses `d`. -/
def RefusedSomewhere (D : NS → Nat) (ns : NS) (d : DataPoint F) : Prop :=
  ∃ (w : World F) (b : Addr) (m : Manager F), WorldOK D w ∧ w.get b ns = some m ∧ Refuses (D ns) m d

/-- The balance of a distribution of at most `n` datapoints of node `a` to the nodes `addrs`: nothing is lost (`gone`) but datapoints
that the manager of some node refused, and all that were taken if there are no addresses; nothing is multiplied but by lost replies.
`copies` are the additional copies, at most one for each lost reply. -/
def SpreadOut (env : Env) (t : Int) (D : NS → Nat) (a : Addr) (ns : NS) (n : Int) (addrs : List Addr) (w w' : World F) : Prop :=
  ∃ (moved copies gone : List (DataPoint F)) (silent : List Addr), (moved.length : Int) ≤ max n 1 ∧
    (∀ d ∈ moved, d ∈ storedAt w [a] ns) ∧ (∀ d ∈ copies, d ∈ moved) ∧ (∀ d ∈ gone, d ∈ moved ∧ (addrs = [] ∨ RefusedSomewhere D ns d)) ∧
    (∀ b ∈ silent, b ∈ addrs ∧ Unheard env b) ∧ copies.length ≤ silent.length ∧
    ∀ nodes : List Addr, nodes.Nodup → a ∈ nodes → (∀ b ∈ addrs, b ∈ nodes) →
      Conserved t (copies ++ storedAt w nodes ns) (storedAt w' nodes ns) gone

end Trypo.Spec
