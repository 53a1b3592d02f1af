import Verif.Spec.Jobs

/-!
# Specification: which namespace a job is about
-/

namespace Trypo.Spec
open EventLoop

variable {F : Type}

/-- The namespace of a call. -/
def callSubject : Call → NS
  | .expire _ ns => ns
  | .memTrim _ ns => ns
  | .distributeInternal _ ns _ => ns
  | .splitCentroids _ ns _ _ => ns
  | .mergeCentroids _ ns _ _ => ns

/-- The namespace that a job names. HTTP requests that could not be decoded name none; the event loop and its tasks are about all namespaces. -/
def subject : Job F → Option NS
  | .rpc r => some r.ns
  | .call c => some (callSubject c)
  | .put _ body => body.map fun o => o.ns
  | .query _ body => body.map fun o => o.ns
  | .task _ _ _ => none
  | .loop _ _ _ _ _ => none

/-- Everything but the event loop and its tasks. -/
def forClients : Job F → Bool
  | .task _ _ _ => false
  | .loop _ _ _ _ _ => false
  | _ => true

/-- A goroutine that turns to no node: in each of its steps it only lets external inputs (clock readings, random numbers and so on) pass, up to the
given position. -/
def idle : List Nat → Prog F (Outcome F)
  | [] => .ret .nothing
  | q :: qs => .act (.loc (β := Unit) fun _ => .ok ((), q)) fun _ => idle qs

/-- The goroutines of the jobs about `ns`; in place of the others, idle ones. -/
def onlyAbout [GoFloat F] (env : Env) (fac : Factory F) (ns : NS) (ks : Nat → List Nat) (jobs : List (Job F)) : List (Prog F (Outcome F)) :=
  jobs.mapIdx fun i j => if subject j = some ns then j.prog env fac else idle (ks i)

end Trypo.Spec
