import Mathlib.Logic.Equiv.Defs
import Verif.Spec.Recode

/-!
# Specification: other names

What it means to give other names to the nodes (`ρ`) and to the namespaces (`σ`), everywhere in the system: in the tables of the nodes, in
requests, in configurations, in answers, and in what the network does. Different names stay different.
-/

namespace Trypo.Spec
open EventLoop

variable {F : Type} (ρ : Equiv.Perm Addr) (σ : Equiv.Perm NS)

/-- All nodes under other names. -/
def nameWorld (w : World F) : World F :=
  ⟨fun a => (w.table (ρ.symm a)).map fun e => (σ e.1, e.2), w.heap.map fun s => (σ s.1, s.2)⟩

/-- A network that loses the same messages. -/
def nameEnv (env : Env) : Env := { env with up := fun p a => env.up p (ρ.symm a), back := fun p a => env.back p (ρ.symm a) }

/-- A request with other names. -/
def nameRequest : Request F → Request F
  | .add a ns d => .add (ρ a) (σ ns) d
  | .vec a ns => .vec (ρ a) (σ ns)
  | .lenDP a ns => .lenDP (ρ a) (σ ns)
  | .drainUnordered a ns n => .drainUnordered (ρ a) (σ ns) n
  | .drainOrdered a ns n => .drainOrdered (ρ a) (σ ns) n
  | .expire a ns => .expire (ρ a) (σ ns)
  | .memTrim a ns => .memTrim (ρ a) (σ ns)
  | .moveVector a ns => .moveVector (ρ a) (σ ns)
  | .distributeInternal a ns n => .distributeInternal (ρ a) (σ ns) n
  | .distributeFast a ns n addrs => .distributeFast (ρ a) (σ ns) n (addrs.map ρ)
  | .distributeAccurate a ns n addrs => .distributeAccurate (ρ a) (σ ns) n (addrs.map ρ)
  | .knnLookup a ns v k drain => .knnLookup (ρ a) (σ ns) v k drain
  | .nearestCentroids a ns v n drain => .nearestCentroids (ρ a) (σ ns) v n drain
  | .nearestCentroidVec a ns v => .nearestCentroidVec (ρ a) (σ ns) v
  | .splitCentroids a ns min max => .splitCentroids (ρ a) (σ ns) min max
  | .mergeCentroids a ns min max => .mergeCentroids (ρ a) (σ ns) min max
  | .stealCentroid a ns src limit fuel => .stealCentroid (ρ a) (σ ns) (ρ src) limit fuel

/-- A configuration with other names. -/
def nameConfig (cfg : Config) : Config := { cfg with loc := ρ cfg.loc, remotes := cfg.remotes.map ρ }

/-- A call with other names. -/
def nameCall : Call → Call
  | .expire a ns => .expire (ρ a) (σ ns)
  | .memTrim a ns => .memTrim (ρ a) (σ ns)
  | .distributeInternal a ns n => .distributeInternal (ρ a) (σ ns) n
  | .splitCentroids a ns min max => .splitCentroids (ρ a) (σ ns) min max
  | .mergeCentroids a ns min max => .mergeCentroids (ρ a) (σ ns) min max

/-- A job with other names. -/
def nameJob : Job F → Job F
  | .rpc r => .rpc (nameRequest ρ σ r)
  | .call c => .call (nameCall ρ σ c)
  | .put addrs body => .put (addrs.map ρ) (body.map fun o => { o with ns := σ o.ns })
  | .query addrs body => .query (addrs.map ρ) (body.map fun o => { o with ns := σ o.ns })
  | .task cfg fuel t => .task (nameConfig ρ cfg) fuel t
  | .loop cfg fuel skip n iter => .loop (nameConfig ρ cfg) fuel skip n iter

/-- The sizes of nodes, under other names. -/
def nameLens (l : Lens) : Lens := l.map fun e => (ρ e.1, e.2)

/-- A message of the load balancer with other names. -/
def nameStolen (s : Stolen) : Stolen := { s with other := ρ s.other }

/-- What a task hands out, with other names. -/
def nameReport : Report → Report
  | .started calls => .started (calls.map (nameCall ρ σ))
  | .balanced l => .balanced (l.map fun e => (σ e.1, nameLens ρ e.2.1, e.2.2.map (nameStolen ρ)))
  | .gathered l => .gathered (l.map fun e => (ρ e.1, e.2.map fun x => (σ x.1, x.2)))
  | r => r

/-- What a job hands out, with other names: there are none in answers to requests. -/
def nameOutcome : Outcome F → Outcome F
  | .reports l => .reports (l.map (nameReport ρ σ))
  | o => o

/-- An event with other names. -/
def nameEv : Service.Ev F → Service.Ev F
  | .arrive j => .arrive (nameJob ρ σ j)
  | e => e

/-- An event loop with other names. -/
def nameLoop (l : Service.Loop) : Service.Loop := { l with cfg := nameConfig ρ l.cfg }

/-- Two services in the same state, but for names. -/
structure OtherNames (s s' : Service.Sys F) : Prop where
  loops : s'.loops = s.loops.map (nameLoop ρ)
  jobs : s'.jobs = s.jobs.map fun q => (q.1, nameJob ρ σ q.2)
  outcomes : outcomes s' = (outcomes s).map (Option.map (nameOutcome ρ σ))
  world : s'.world = nameWorld ρ σ s.world
  now : s'.now = s.now

end Trypo.Spec
