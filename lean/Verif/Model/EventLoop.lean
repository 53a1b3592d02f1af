import Verif.Model.Core
import Verif.Model.F64

/-!
# core/eventloop: el.go, cfg.go, eltask.go, eltaskutils.go

The control flow of the loop is a small-step machine, because another goroutine may call the stop function between any
two of its steps. The tasks are programs on the world.

Simplifications. `cfg.internal.stopped` is an unsynchronised variable of two goroutines; a read is assumed to see the
last write. Sleeping takes one step, whatever the duration. Log messages are not modelled, except for those of the load
balancer. Integers do not overflow.
-/

namespace Trypo
namespace EventLoop

/-- The tasks of core/eventloop/eltask.go. -/
inductive TaskId where
  | getMeta | expire | memTrim | merge | split | distInternal | distFast | distAccurate | loadBalancing
  deriving DecidableEq, Repr

/-- The order of the tasks in core/eventloop/el.go:33-45. -/
def order : List TaskId := [.getMeta, .expire, .memTrim, .merge, .split, .distInternal, .distFast, .distAccurate, .loadBalancing]

/-- core/eventloop/cfg.go:14-56 `EventLoopTaskSkipConfig`. -/
structure SkipConfig where
  expire : Int
  memTrim : Int
  distFast : Int
  distAccurate : Int
  distInternal : Int
  split : Int
  merge : Int
  loadBalancing : Int
  getMeta : Int
  deriving DecidableEq, Repr

/-- The interval that a task hands to `withSkip`, core/eventloop/eltask.go:41, 53, 65, 87, 109, 123, 136, 157, 220. -/
def SkipConfig.interval (s : SkipConfig) : TaskId → Int
  | .getMeta => s.getMeta
  | .expire => s.expire
  | .memTrim => s.memTrim
  | .merge => s.merge
  | .split => s.split
  | .distInternal => s.distInternal
  | .distFast => s.distFast
  | .distAccurate => s.distAccurate
  | .loadBalancing => s.loadBalancing

/-- The body of the loop of `clamp`, core/eventloop/cfg.go:72-77. -/
def clampItem (min max v : Int) : Int :=
  let v := if v < min then min else v
  if v > max then max else v

/-- core/eventloop/cfg.go:60-79 `clamp`. The list on lines 61-70 does not contain `Meta`. -/
def SkipConfig.clamp (min max : Int) (s : SkipConfig) : SkipConfig where
  expire := clampItem min max s.expire
  memTrim := clampItem min max s.memTrim
  distFast := clampItem min max s.distFast
  distAccurate := clampItem min max s.distAccurate
  distInternal := clampItem min max s.distInternal
  split := clampItem min max s.split
  merge := clampItem min max s.merge
  loadBalancing := clampItem min max s.loadBalancing
  getMeta := s.getMeta

/-- core/eventloop/cfg.go:155-168 `validate`, as far as the intervals are concerned. -/
def validate (s : SkipConfig) : SkipConfig := s.clamp 1 1000

/-- core/eventloop/eltask.go:9-13 `withSkip`: whether the task is run; the modulus panics for 0. -/
def withSkip (iter interval : Int) : Except Panic Bool :=
  if interval = 0 then .error .divZero else .ok (decide (iter.tmod interval = 0))

/-- Where the goroutine of core/eventloop/el.go:28-52 is. -/
inductive PC where
  /-- before the condition on line 30 -/
  | head
  /-- before the sleep on line 31 -/
  | sleepLoop
  /-- before the condition of `elStep` on line 13, for the task with this number -/
  | check (i : Nat)
  /-- before the sleep on line 16 -/
  | sleep (i : Nat)
  /-- before the condition on line 19 -/
  | recheck (i : Nat)
  /-- before the call on line 22 -/
  | call (i : Nat)
  /-- before line 48 -/
  | tick
  /-- the loop was left -/
  | done
  /-- the goroutine panicked, and with it the process ended -/
  | crashed
  deriving DecidableEq, Repr

/-- What can be observed of the loop. -/
inductive Event where
  /-- a sleep begins -/
  | sleep
  /-- a task is called and does its work -/
  | ran (t : TaskId)
  /-- a task is called and does nothing, because it is not its turn -/
  | skipped (t : TaskId)
  deriving DecidableEq, Repr

/-- The goroutine. -/
structure State where
  pc : PC
  /-- `cfg.internal.iter` -/
  iter : Int
  deriving DecidableEq, Repr

/-- After the task with number `i`. -/
def next (i : Nat) : PC := if i + 1 < order.length then .check (i + 1) else .tick

/-- core/eventloop/el.go:11-23 `elStep`, 30-51: one step of the goroutine. `stopped` is `cfg.internal.stopped`. -/
def step (skip : SkipConfig) (stopped : Bool) (s : State) : State × List Event :=
  match s.pc with
  | .head => (⟨if stopped then .done else .sleepLoop, s.iter⟩, [])
  | .sleepLoop => (⟨.check 0, s.iter⟩, [.sleep])
  | .check i => (⟨if stopped then next i else .sleep i, s.iter⟩, [])
  | .sleep i => (⟨.recheck i, s.iter⟩, [.sleep])
  | .recheck i => (⟨if stopped then next i else .call i, s.iter⟩, [])
  | .call i =>
    match order[i]? with
    | none => (⟨.crashed, s.iter⟩, [])
    | some t =>
      match withSkip s.iter (skip.interval t) with
      | .error _ => (⟨.crashed, s.iter⟩, [])
      | .ok true => (⟨next i, s.iter⟩, [.ran t])
      | .ok false => (⟨next i, s.iter⟩, [.skipped t])
  | .tick => (⟨.head, if s.iter + 1 > 1000 then 0 else s.iter + 1⟩, [])
  | .done => (s, [])
  | .crashed => (s, [])

/-- The state after `n` steps from `s`, and the events. `st k` is `cfg.internal.stopped` at step `k`; the first step is
number `k`. -/
def steps (skip : SkipConfig) (st : Nat → Bool) : Nat → Nat → State → State × List Event
  | _, 0, s => (s, [])
  | k, n + 1, s =>
    let r := step skip (st k) s
    let q := steps skip st (k + 1) n r.1
    (q.1, r.2 ++ q.2)

/-- core/eventloop/el.go:25-58 `EventLoop`: `n` steps of a new event loop with the given configuration. -/
def run (cfg : SkipConfig) (st : Nat → Bool) (n : Nat) : State × List Event :=
  steps (validate cfg) st 0 n ⟨.head, 0⟩

/-! ### Grouping by namespace -/

/-- core/eventloop/eltaskutils.go:11-13 `addrNamespaceTable`: the entries of the map, one per namespace. -/
abbrev Table := List (NS × List Addr)

/-- core/eventloop/eltaskutils.go:15-28 `addEntry`. -/
def addEntry (t : Table) (a : Addr) (ns : NS) : Table :=
  match t with
  | [] => [(ns, [a])]
  | e :: t => if e.1 = ns then (ns, e.2 ++ [a]) :: t else e :: addEntry t a ns

/-- core/eventloop/eltaskutils.go:31-37 `addrsWithNamespace`. -/
def addrsWithNamespace (t : Table) (ns : NS) : List Addr := (t.lookup ns).getD []

/-- core/eventloop/eltaskutils.go:40-46 `namespaces`: the keys of the map, in some order. -/
def namespaces (env : Env) (t : Table) : Go (List NS) := env.shuffled (t.map (fun e => e.1))

/-- The inner loop of core/eventloop/eltask.go:23-25. -/
def addEntries (t : Table) (a : Addr) (l : List NS) : Table := l.foldl (fun t ns => addEntry t a ns) t

/-- The loop of core/eventloop/eltask.go:21-26 on the replies of the nodes. -/
def tableOf (replies : List (Addr × List NS)) : Table := replies.foldl (fun t r => addEntries t r.1 r.2) []

variable {F : Type} [GoFloat F]

/-- core/eventloop/eltask.go:19-28 `withNamespaceTable`: the table handed to the task. -/
def namespaceTable (env : Env) (remotes : List Addr) : Prog F Table := do
  let replies ← Prog.each (fun a => do let l ← Client.namespaces env a; pure (a, l)) remotes
  pure (tableOf replies)

/-! ### Load balancing -/

/-- Entries of a `map[Addr]int`. -/
abbrev Lens := List (Addr × Int)

/-- `m[a]`, which is 0 if there is no entry. -/
def Lens.get (m : Lens) (a : Addr) : Int := (m.lookup a).getD 0

/-- `m[a] = n`. -/
def Lens.set (m : Lens) (a : Addr) (n : Int) : Lens :=
  match m with
  | [] => [(a, n)]
  | e :: m => if e.1 = a then (a, n) :: m else e :: Lens.set m a n

/-- core/eventloop/eltaskutils.go:49-79 `fetchRemoteLenDPs`: one goroutine per address; answers arrive in some order. The
error on line 64 is never a `NamespaceErr` (net/rpc delivers all errors as `ServerError`), so that `ok` is always true, and
a node that cannot be reached counts as empty. -/
def fetchLens (env : Env) (addrs : List Addr) (ns : NS) : Prog F Lens := do
  let started ← Prog.loc (env.shuffled addrs)
  let answers ← Prog.each (fun a => do let n ← Client.lenDP env a ns; pure (a, n)) started
  let arrived ← Prog.loc (env.shuffled answers)
  pure (arrived.foldl (fun m q => Lens.set m q.1 (q.2 : Int)) [])

/-- The constant `0.4` as a float64: `7205759403792794 * 2^-54`. -/
def c04 : F64 := .fin false (7205759403792794 * 2 ^ 1020)

/-- `int(x)` for a float64 in the range of `int`: truncation. -/
def toInt : F64 → Int
  | .fin neg k => if neg then -((k / F64.UNIT : Nat) : Int) else ((k / F64.UNIT : Nat) : Int)
  | _ => 0

/-- core/eventloop/eltask.go:171. -/
def margin (mean : Int) : Int := toInt (F64.mul (F64.ofInt mean) c04)

/-- The sum on core/eventloop/eltask.go:165-168. -/
def total (m : Lens) : Int := m.foldl (fun s e => s + e.2) 0

/-- core/eventloop/eltask.go:169; `/` panics for 0. -/
def meanOf (m : Lens) : Except Panic Int :=
  if m.length = 0 then .error .divZero else .ok ((total m).tdiv m.length)

/-- core/eventloop/eltask.go:177-202: how many datapoints are asked from `other`; `none` is `continue`. -/
def want (nRemotes nAddrs : Nat) (loc : Addr) (mean mar : Int) (lens : Lens) (other : Addr) (otherLen : Int) :
    Except Panic (Option Int) :=
  if loc = other ∨ lens.get loc > mean then .ok none
  else if lens.get loc > mean - mar then .ok none
  else if nRemotes = 0 then .error .divZero
  else
    let n := ((mean - lens.get loc).tdiv nRemotes).tdiv 3
    if n = 0 then .ok none
    else if otherLen - n < mean + mar ∧ nAddrs ≠ 1 then .ok none
    else .ok (some n)

/-- A message of core/eventloop/eltask.go:206-208: `want` datapoints were asked from `other`, `got` were transferred. -/
structure Stolen where
  other : Addr
  want : Int
  got : Int
  deriving DecidableEq, Repr

/-- The loop of core/eventloop/eltask.go:175-213 over the remaining keys of the map; `steal` is line 204. The value of an
entry is read when the iteration gets to it. (Line 211 may insert the local address while the map is iterated over; whether
that entry is visited makes no difference, see line 177.) -/
def balanceLoop (steal : Addr → Int → Prog F Int) (nRemotes nAddrs : Nat) (loc : Addr) (mean mar : Int) :
    List Addr → Lens → Prog F (List Stolen)
  | [], _ => pure []
  | other :: rest, lens => do
    match (← Prog.loc (Go.lift (want nRemotes nAddrs loc mean mar lens other (lens.get other)))) with
    | none => balanceLoop steal nRemotes nAddrs loc mean mar rest lens
    | some n => do
      let got ← steal other n
      let lens1 := lens.set loc (lens.get loc + got)
      let lens2 := lens1.set other (lens1.get other - got)
      let log ← balanceLoop steal nRemotes nAddrs loc mean mar rest lens2
      pure (⟨other, n, got⟩ :: log)

/-- core/eventloop/eltask.go:165-213 for one namespace, given the sizes of the nodes. -/
def balance (env : Env) (steal : Addr → Int → Prog F Int) (nRemotes nAddrs : Nat) (loc : Addr) (lens : Lens) :
    Prog F (List Stolen) := do
  let mean ← Prog.loc (Go.lift (meanOf lens))
  let keys ← Prog.loc (env.shuffled (lens.map (fun e => e.1)))
  balanceLoop steal nRemotes nAddrs loc mean (margin mean) keys lens

/-- The body of the loop of core/eventloop/eltask.go:159-214: the sizes that were found, and the messages. -/
def balanceNamespace (env : Env) (fac : Factory F) (fuel : Nat) (loc : Addr) (remotes : List Addr) (t : Table) (ns : NS) :
    Prog F (Lens × List Stolen) := do
  let addrs := addrsWithNamespace t ns
  let lens ← fetchLens env addrs ns
  let log ← balance env (fun other n => do
    let r ← Client.stealCentroids env fac fuel loc ns other n
    pure (r.1 : Int)) remotes.length addrs.length loc lens
  pure (lens, log)

end EventLoop
end Trypo
