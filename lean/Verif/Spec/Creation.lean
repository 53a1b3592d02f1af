import Verif.Spec.Service

/-!
# Specification: when namespaces are created one at a time
-/

namespace Trypo.Spec
open EventLoop Service

variable {F : Type} [GoFloat F]

/-- A job that may create the namespace `ns` at the node `a`: a request to add a datapoint or to steal centroids, a put that may go
there, and the load balancer of the node if it also looks at other nodes. -/
def Job.mayCreateAt (j : Job F) (a : Addr) (ns : NS) : Prop :=
  match j with
  | .rpc r => r.mayCreate ∧ a = r.node ∧ ns = r.ns
  | .put addrs (some o) => a ∈ addrs ∧ ns = o.ns
  | .task cfg _ .loadBalancing => a = cfg.loc ∧ ∃ b ∈ cfg.remotes, b ≠ cfg.loc
  | .loop cfg _ _ _ _ => a = cfg.loc ∧ ∃ b ∈ cfg.remotes, b ≠ cfg.loc
  | _ => False

/-- The job with number `i` is `j`, and it is not done. -/
def Unfinished (s : Sys F) (i : Nat) (j : Job F) : Prop :=
  (∃ src, s.jobs[i]? = some (src, j)) ∧ ∃ m : Prog F (Outcome F), s.progs[i]? = some m ∧ ∀ o, m ≠ .ret o

/-- No two jobs that are going on may both create a namespace that does not exist yet at some node. -/
def Uncontested (s : Sys F) : Prop :=
  ∀ a ns, s.world.lookup a ns = none → ∀ i i' j j', Unfinished s i j → Unfinished s i' j' → j.mayCreateAt a ns → j'.mayCreateAt a ns → i = i'

/-- This is so all the time. -/
def NoRaces (env : Env) (fac : Factory F) (es : List (Ev F)) (s : Sys F) : Prop :=
  ∀ es' s', es' <+: es → Service.run env fac es' s = .ok s' → Uncontested s'

end Trypo.Spec
