import Verif.Model.Manager

/-!
# The running system: nodes, slots, locks, network

A node is a `KMeansServer` (pkg/kmeans/rpc/rpc.go:186-197); its table maps namespaces to slots, a slot holds a centroid
manager. Programs of goroutines are sequences of atomic actions, so that they can be run alone (`Prog.run`) and
interleaved (`Pool`). The atomic actions are the critical sections of the code: everything done under the table mutex
(rpc.go:128-131, 136-146, 160-162, 178-180; server.go:24-32, 410-415), everything done under a slot mutex
(rpc.go:111-114), and computations on data that only the goroutine can see. That critical sections may be treated as
atomic is itself shown in `Verif/Props/Locks.lean`.
-/

namespace Trypo

/-- An address, `arbiter.Addr` or the string made of it. Only equality of addresses matters to the code. -/
abbrev Addr := Nat

/-- A namespace; a string in the code. Only equality of namespaces matters to the code. -/
abbrev NS := Nat

/-- What the code cannot control. Every oracle is indexed by the position in the stream that also numbers the clock
readings.
* `tk`: the clock.
* `up p a`: whether dialing `a` and sending it a request succeeds (pkg/kmeans/rpc/client.go:16).
* `back p a`: whether the reply of `a` arrives.
* `perm p n`: the order in which `n` map entries are visited, or `n` replies arrive.
* `rand p n`: `rand.Intn(n)`. -/
structure Env where
  tk : Nat → Int
  up : Nat → Addr → Bool
  back : Nat → Addr → Bool
  perm : Nat → Nat → List Nat
  rand : Nat → Nat → Nat

namespace Env

/-- Reorder `l` by the indexes `is`. -/
def reorder {α : Type} (is : List Nat) (l : List α) : List α := is.filterMap (fun i => l[i]?)

/-- Sending a request to `a`. -/
def sent (env : Env) (a : Addr) : Go Bool := fun p => .ok (env.up p a, p + 1)

/-- The arrival of a reply from `a`. -/
def arrived (env : Env) (a : Addr) : Go Bool := fun p => .ok (env.back p a, p + 1)

/-- Some order of `l`: map iteration, or arrival in a channel that several goroutines write to. -/
def shuffled {α : Type} (env : Env) (l : List α) : Go (List α) := fun p => .ok (reorder (env.perm p l.length) l, p + 1)

/-- An iteration order for a map that is only known later; see `ord` in `Model/Manager.lean`. -/
def mapOrder (env : Env) : Go (List (Nat × Nat) → List (Nat × Nat)) :=
  fun p => .ok (fun l => reorder (env.perm p l.length) l, p + 1)

/-- `rand.Intn(n)`. -/
def intn (env : Env) (n : Nat) : Go Nat := fun p => .ok (env.rand p n, p + 1)

end Env

/-- All nodes. `table a` is the map `slots` of the server at address `a` (pkg/kmeans/rpc/rpc.go:121-124), from
namespaces to pointers, which are positions in `heap`. `heap` lists all slots ever created (rpc.go:102-105), each with
the namespace it was created for; that label is not in the code and is never read by the model functions. -/
structure World (F : Type) where
  table : Addr → List (NS × Nat)
  heap : List (NS × Manager F)

namespace World

variable {F : Type}

/-- `t.slots[namespace]`, pkg/kmeans/rpc/rpc.go:161. -/
def lookup (w : World F) (a : Addr) (ns : NS) : Option Nat := (w.table a).lookup ns

/-- The manager of a namespace at a node. -/
def get (w : World F) (a : Addr) (ns : NS) : Option (Manager F) :=
  (w.lookup a ns).bind (fun i => (w.heap[i]?).map (fun s => s.2))

/-- pkg/kmeans/rpc/rpc.go:173-182 `AddSlot`, for a slot with a manager (the abort on nil is not reachable from the
server). An existing entry is replaced. -/
def addSlot (w : World F) (a : Addr) (ns : NS) (m : Manager F) : World F where
  table := fun b => if b = a then (ns, w.heap.length) :: (w.table a).filter (fun e => e.1 ≠ ns) else w.table b
  heap := w.heap ++ [(ns, m)]

end World

/-- The atomic actions of a goroutine.
* `lookup`: the table lookup in `Access`, pkg/kmeans/rpc/rpc.go:160-162.
* `slot`: `CManagerSlot.Access`, pkg/kmeans/rpc/rpc.go:110-115.
* `addSlot`: pkg/kmeans/rpc/rpc.go:173-182.
* `names`: the keys of the table, in some order: pkg/kmeans/rpc/rpc.go:135-146, server.go:24-31, 410-415. The order is
  table order here; callers shuffle it.
* `loc`: a computation on data that belongs to the goroutine. -/
inductive Act (F : Type) : Type → Type 1
  | lookup (a : Addr) (ns : NS) : Act F (Option Nat)
  | slot {β : Type} (i : Nat) (f : Manager F → Go (β × Manager F)) : Act F β
  | addSlot (a : Addr) (ns : NS) (m : Manager F) : Act F Unit
  | names (a : Addr) : Act F (List NS)
  | loc {β : Type} (m : Go β) : Act F β

/-- The effect of an atomic action. -/
def Act.run {F : Type} : {β : Type} → Act F β → World F → Go (β × World F)
  | _, .lookup a ns, w => pure (w.lookup a ns, w)
  | _, .slot i f, w =>
    match w.heap[i]? with
    | none => Go.panic .nilDeref
    | some s => do
      let r ← f s.2
      pure (r.1, { w with heap := w.heap.set i (s.1, r.2) })
  | _, .addSlot a ns m, w => pure ((), w.addSlot a ns m)
  | _, .names a, w => pure ((w.table a).map (fun e => e.1), w)
  | _, .loc m, w => do
    let r ← m
    pure (r, w)

/-- The program of a goroutine. A panic in any goroutine ends the process, so it is a panic of the whole run. -/
inductive Prog (F : Type) (α : Type) : Type 1
  | ret (a : α)
  | act {β : Type} (a : Act F β) (k : β → Prog F α)

namespace Prog

variable {F : Type}

/-- Sequencing. -/
def bind {α β : Type} : Prog F α → (α → Prog F β) → Prog F β
  | .ret a, f => f a
  | .act a k, f => .act a (fun b => (k b).bind f)

instance : Monad (Prog F) where
  pure := .ret
  bind := bind

/-- A single action. -/
def ofAct {β : Type} (a : Act F β) : Prog F β := .act a .ret

/-- A local computation. -/
def loc {β : Type} (m : Go β) : Prog F β := ofAct (.loc m)

/-- Running alone. -/
def run {α : Type} : Prog F α → World F → Go (α × World F)
  | .ret a, w => pure (a, w)
  | .act a k, w => do
    let r ← a.run w
    (k r.1).run r.2

/-- Running `f` on every element of a list, in order. -/
def each {α β : Type} (f : α → Prog F β) : List α → Prog F (List β)
  | [] => pure []
  | x :: xs => do
    let y ← f x
    let ys ← each f xs
    pure (y :: ys)

end Prog

/-- Goroutines running concurrently: `sched` tells which one makes the next step. A goroutine that is done or does not
exist makes no step. -/
def Pool.run {F α : Type} :
    List Nat → List (Prog F α) → World F → Nat → Except Panic (List (Prog F α) × World F × Nat)
  | [], ts, w, p => .ok (ts, w, p)
  | i :: is, ts, w, p =>
    match ts[i]? with
    | some (.act a k) =>
      match a.run w p with
      | .ok (r, p') => Pool.run is (ts.set i (k r.1)) r.2 p'
      | .error e => .error e
    | _ => Pool.run is ts w p

end Trypo
