import Verif.Model.Tasks
import Verif.Spec.System

/-!
# Specification: everything a running service does

A service (cmd/service/service.go) answers RPC requests, answers HTTP requests, and runs the event loop, which starts
further goroutines. All of these, at any number of nodes, are jobs that run concurrently.
-/

namespace Trypo.Spec
open EventLoop

variable {F : Type} [GoFloat F]

/-- A goroutine of a service. -/
inductive Job (F : Type) where
  /-- an RPC request -/
  | rpc (r : Request F)
  /-- a goroutine that was started by the event loop -/
  | call (c : Call)
  /-- an HTTP put; `addrs` is `RPCAddrs` of the API configuration -/
  | put (addrs : List Addr) (body : Option (Api.PutOpts F))
  /-- an HTTP query -/
  | query (addrs : List Addr) (body : Option (Api.QueryOpts F))
  /-- a task of the event loop -/
  | task (cfg : Config) (fuel : Nat) (t : TaskId)
  /-- `n` iterations of the event loop, the first with number `iter` -/
  | loop (cfg : Config) (fuel : Nat) (skip : SkipConfig) (n : Nat) (iter : Int)

/-- What a job hands out. -/
inductive Outcome (F : Type) where
  | answer (a : Answer F)
  | nothing
  | status (n : Nat)
  | found (n : Nat) (l : List (Api.DP F))
  | reports (l : List Report)

/-- The program of a job. -/
def Job.prog (env : Env) (fac : Factory F) : Job F → Prog F (Outcome F)
  | .rpc r => do let a ← r.serve env fac; pure (.answer a)
  | .call c => do let _ ← c.prog env; pure .nothing
  | .put addrs body => do let n ← Api.putDataPoint env fac addrs body; pure (.status n)
  | .query addrs body => do let r ← Api.queryDataPoint env addrs body; pure (.found r.1 r.2)
  | .task cfg fuel t => do let r ← EventLoop.task env fac fuel cfg t; pure (.reports [r])
  | .loop cfg fuel skip n iter => do let l ← EventLoop.loop env fac fuel cfg skip n iter; pure (.reports l)

/-- Datapoints that a job brings to a namespace. -/
def Job.brings (j : Job F) (ns : NS) : List (DataPoint F) :=
  match j with
  | .rpc r => if r.ns = ns then r.brings else []
  | .put _ (some o) => if o.ns = ns then [o.dp.toDataPoint] else []
  | _ => []

/-- Datapoints of a namespace that leave the system with what a job hands out: those in an answer to a request to drain, and
the one of a put that was not answered with 200. -/
def Job.takes (j : Job F) (o : Outcome F) (ns : NS) : List (DataPoint F) :=
  match j, o with
  | .rpc r, .answer a => if r.ns = ns then r.takes a else []
  | .put _ (some o), .status n => if o.ns = ns ∧ n ≠ 200 then [o.dp.toDataPoint] else []
  | .query _ (some o), .found _ l => if o.ns = ns ∧ o.drain then l.map (fun d => d.toDataPoint) else []
  | _, _ => []

/-- Counts are not negative; datapoints have the dimension of their namespace; no interval is 0. -/
def Job.valid (D : NS → Nat) : Job F → Prop
  | .rpc r => r.valid D
  | .put _ (some o) => o.dp.vec.length = D o.ns
  | .query _ (some o) => 0 ≤ o.n
  | .task cfg _ _ => 0 ≤ cfg.fastN ∧ 0 ≤ cfg.accurateN
  | .loop cfg _ skip _ _ => (0 ≤ cfg.fastN ∧ 0 ≤ cfg.accurateN) ∧ ∀ t, skip.interval t ≠ 0
  | _ => True

/-- A node that can always be reached and always answers. -/
def Reachable (env : Env) (a : Addr) : Prop := (∀ p, env.up p a = true) ∧ ∀ p, env.back p a = true

/-- A node of whose event loop the distribution tasks find the node itself. -/
def FindsItself (env : Env) (cfg : Config) : Prop := Reachable env cfg.loc ∧ cfg.loc ∈ cfg.remotes

/-- When a job is sure to leave no datapoint behind. -/
def Job.lossless (env : Env) : Job F → Prop
  | .rpc r => r.lossless env
  | .call _ => True
  | .put _ _ => AlwaysFinds (knnCos (F := F))
  | .query _ (some o) => o.drain = true → NoLostReplies env
  | .query _ none => True
  | .task cfg _ .distFast => AlwaysFinds (knnCos (F := F)) ∧ FindsItself env cfg
  | .task cfg _ .distAccurate => AlwaysFinds (knnCos (F := F)) ∧ FindsItself env cfg
  | .task _ _ .loadBalancing => NoLostReplies env
  | .task _ _ _ => True
  | .loop cfg _ _ _ _ => AlwaysFinds (knnCos (F := F)) ∧ FindsItself env cfg ∧ NoLostReplies env

/-- The same, when what is in lost replies is counted separately. -/
def Job.complete (env : Env) : Job F → Prop
  | .rpc r => r.complete
  | .put _ _ => AlwaysFinds (knnCos (F := F))
  | .task cfg _ .distFast => AlwaysFinds (knnCos (F := F)) ∧ FindsItself env cfg
  | .task cfg _ .distAccurate => AlwaysFinds (knnCos (F := F)) ∧ FindsItself env cfg
  | .loop cfg _ _ _ _ => AlwaysFinds (knnCos (F := F)) ∧ FindsItself env cfg
  | _ => True

/-- Jobs that take datapoints from another node. -/
def Job.fetches : Job F → Prop
  | .rpc r => r.fetches
  | .query _ (some o) => o.drain = true
  | .task _ _ .loadBalancing => True
  | .loop _ _ _ _ _ => True
  | _ => False

/-- Nothing is created: wherever a job may create a namespace, it exists. -/
def Job.established (w : World F) : Job F → Prop
  | .rpc r => r.mayCreate → w.lookup r.node r.ns ≠ none
  | .put addrs (some o) => ∀ a ∈ addrs, w.lookup a o.ns ≠ none
  | .task cfg _ .loadBalancing => ∀ a ns, w.lookup a ns ≠ none → w.lookup cfg.loc ns ≠ none
  | .loop cfg _ _ _ _ => ∀ a ns, w.lookup a ns ≠ none → w.lookup cfg.loc ns ≠ none
  | _ => True

/-- What the tasks that only start goroutines start, per namespace of the local node. -/
def maintenance (cfg : Config) : TaskId → Option (NS → Call)
  | .expire => some (fun ns => .expire cfg.loc ns)
  | .memTrim => some (fun ns => .memTrim cfg.loc ns)
  | .distInternal => some (fun ns => .distributeInternal cfg.loc ns cfg.internalN)
  | .split => some (fun ns => .splitCentroids cfg.loc ns cfg.splitMin cfg.splitMax)
  | .merge => some (fun ns => .mergeCentroids cfg.loc ns cfg.mergeMin cfg.mergeMax)
  | _ => none

/-- What `LogMeta` should get for the node `a`: exactly its namespaces with the numbers of their centroids and datapoints, or
nothing if the node could not be reached. -/
def MetaOf (env : Env) (w : World F) (a : Addr) (e : Addr × List (NS × Nat × Nat)) : Prop :=
  e.1 = a ∧ (e.2.map (fun x => x.1)).Nodup ∧
    ((∀ ns k n, (ns, k, n) ∈ e.2 ↔ ∃ m, w.get a ns = some m ∧ k = m.centroids.length ∧ n = (stored m).length) ∨
      (e.2 = [] ∧ ¬ Reachable env a))

/-- What jobs bring to a namespace. -/
def broughtBy (jobs : List (Job F)) (ns : NS) : List (DataPoint F) := jobs.flatMap (fun j => j.brings ns)

/-- What leaves a namespace with what jobs hand out. -/
def takenBy (jobs : List (Job F)) (outs : List (Outcome F)) (ns : NS) : List (DataPoint F) :=
  (jobs.zip outs).flatMap (fun q => q.1.takes q.2 ns)

end Trypo.Spec
