import Verif.Spec.Jobs

/-!
# cmd/service/service.go: a running service

Every node answers requests and runs an event loop, whose tasks start further goroutines. Requests arrive at any time. All
of this happens concurrently: an event of `Ev` tells what happens next.

Simplifications. All nodes are in one state, and a panic at any of them ends the run. What a task starts with `go` is started
when the task ends; between the first `go` statement of a task and its end nothing else is done by it (core/eventloop/eltask.go:40-60,
108-144), except for logging. Starting the RPC server is modelled in `Model/Listen.lean`.
-/

namespace Trypo.Service
open EventLoop Spec

/-- Who started a goroutine. -/
inductive Source where
  /-- a request from outside -/
  | outside
  /-- the event loop with this number called a task -/
  | loop (k : Nat)
  /-- a `go` statement in the task that is the job with this number -/
  | task (i : Nat)
  deriving DecidableEq, Repr

/-- An event loop, core/eventloop/el.go:25-58. -/
structure Loop where
  cfg : Config
  /-- the bound on the iterations of the loops in the load balancer, see `C64` -/
  fuel : Nat
  /-- `cfg.TaskSkip` after `validate` -/
  skip : SkipConfig
  /-- `cfg.internal.stopped` -/
  stopped : Bool
  /-- where the goroutine is, and `cfg.internal.iter` -/
  pos : EventLoop.State
  /-- what it has done so far; not in the code -/
  log : List Event
  /-- the job it waits for: the task it called last, until that returns -/
  busy : Option Nat

/-- core/eventloop/el.go:25-28 `EventLoop`: a new event loop. -/
def Loop.new (cfg : Config) (fuel : Nat) (skip : SkipConfig) : Loop :=
  ⟨cfg, fuel, validate skip, false, ⟨.head, 0⟩, [], none⟩

variable {F : Type} [GoFloat F]

/-- The nodes with everything that is going on. -/
structure Sys (F : Type) where
  loops : List Loop
  /-- all jobs ever started, in order -/
  jobs : List (Source × Job F)
  /-- what is left of them -/
  progs : List (Prog F (Outcome F))
  world : World F
  now : Nat

/-- cmd/service/service.go:31-40: the services after their start, at any number of nodes; `nodes` are the arguments of
`EventLoop`. -/
def boot (nodes : List (Config × Nat × SkipConfig)) (w : World F) (p : Nat) : Sys F :=
  ⟨nodes.map (fun n => Loop.new n.1 n.2.1 n.2.2), [], [], w, p⟩

/-- A new job: a goroutine for a request (cmd/service/service.go:43-48, pkg/kmeans/rpc/rpc.go:238), a call of a task
(core/eventloop/el.go:22), which runs in the goroutine of the event loop, or a goroutine that a task starts
(core/eventloop/eltask.go:45, 57, 115, 128, 141). -/
def Sys.start (env : Env) (fac : Factory F) (src : Source) (j : Job F) (s : Sys F) : Sys F :=
  { s with jobs := s.jobs ++ [(src, j)], progs := s.progs ++ [j.prog env fac] }

/-- The `go` statements that a task executed, core/eventloop/eltask.go:45, 57, 115, 128, 141. -/
def callsOf : Outcome F → List Call
  | .reports l => l.flatMap (fun r => match r with | .started cs => cs | _ => [])
  | _ => []

/-- What happens next. -/
inductive Ev (F : Type) where
  /-- a request arrives -/
  | arrive (j : Job F)
  /-- a goroutine makes a step -/
  | run (i : Nat)
  /-- an event loop makes a step -/
  | loop (k : Nat)
  /-- the stop function of an event loop is called -/
  | stop (k : Nat)

/-- A step of an event loop, core/eventloop/el.go:11-23, 30-51: it waits for the task that it called; when that has returned, the
goroutines of the `go` statements are there and the loop goes on. -/
def loopStep (env : Env) (fac : Factory F) (k : Nat) (l : Loop) (s : Sys F) : Except Panic (Sys F) :=
  match l.busy with
  | some i =>
    match s.progs[i]? with
    | some (.ret o) =>
      .ok ((callsOf o).foldl (fun s c => s.start env fac (.task i) (.call c)) { s with loops := s.loops.set k { l with busy := none } })
    | _ => .ok s
  | none =>
    match EventLoop.step l.skip l.stopped l.pos with
    | (pos, es) =>
      if pos.pc = .crashed then .error .divZero
      else
        match es with
        | [.ran t] => .ok ({ s with loops := s.loops.set k { l with pos := pos, log := l.log ++ es, busy := some s.jobs.length } }.start
            env fac (.loop k) (.task l.cfg l.fuel t))
        | _ => .ok { s with loops := s.loops.set k { l with pos := pos, log := l.log ++ es } }

/-- An event. The stop function is core/eventloop/el.go:54-56. -/
def step (env : Env) (fac : Factory F) (e : Ev F) (s : Sys F) : Except Panic (Sys F) :=
  match e with
  | .arrive j => .ok (s.start env fac .outside j)
  | .run i =>
    match Pool.run [i] s.progs s.world s.now with
    | .ok (ts, w, p) => .ok { s with progs := ts, world := w, now := p }
    | .error e => .error e
  | .loop k =>
    match s.loops[k]? with
    | some l => loopStep env fac k l s
    | none => .ok s
  | .stop k =>
    match s.loops[k]? with
    | some l => .ok { s with loops := s.loops.set k { l with stopped := true } }
    | none => .ok s

/-- Events one after the other. -/
def run (env : Env) (fac : Factory F) : List (Ev F) → Sys F → Except Panic (Sys F)
  | [], s => .ok s
  | e :: es, s =>
    match step env fac e s with
    | .ok s' => run env fac es s'
    | .error p => .error p

/-! ### The shipped configuration -/

/-- cfg/cfg.go:81-123 `TaskSkip`. -/
def shippedSkip : SkipConfig where
  expire := 20
  memTrim := 10
  distFast := 4
  distAccurate := 8
  distInternal := 3
  split := 3
  merge := 3
  loadBalancing := 7
  getMeta := 1

/-- cfg/cfg.go:62-174 `ELT`; cfg/cfg.go:25-30: the local address is the only remote address. -/
def shippedConfig (loc : Addr) : Config where
  loc := loc
  remotes := [loc]
  fastN := 100
  accurateN := 50
  internalN := 200
  splitMin := 1000
  splitMax := 1000000
  mergeMin := -1
  mergeMax := 100
  logLocalOnly := true

/-- cmd/service/service.go:15-28 `cmSpawner` with cfg/cfg.go:46, 49, 184, 187. -/
def shippedFactory : Factory F := ⟨100, 10000, knnCos, kfnCos⟩

end Trypo.Service
