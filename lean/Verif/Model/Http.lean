import Verif.Spec.Jobs

/-!
# Panics of HTTP handlers

net/http runs every handler of core/api/handler.go:20-30 in a goroutine of its connection and recovers from its panics: the connection
is closed without an answer and the process goes on. net/rpc and the goroutines of the event loop (core/eventloop/eltask.go) have no such
protection, there a panic ends the process.
-/

namespace Trypo
open EventLoop Spec

variable {F : Type}

/-- A computation of the handler itself; a panic (`none`) ends the handler. -/
def Go.recovered {α : Type} (m : Go α) : Go (Option α) := fun p =>
  match m p with
  | .ok (a, p') => .ok (some a, p')
  | .error _ => .ok (none, p)

/-- One step of a handler of core/api/handler.go:50-134, and the rest `k` of the handler if the step does not panic. What the handler does
itself is protected, what RPC servers do for it on the data of their namespaces is not. Simplification: what RPC servers do without data -
making a manager for a new namespace, pkg/kmeans/rpc/server.go:58 - and the goroutines of core/nodes/vecs.go:44-66 are protected too. -/
def Act.recovered {α : Type} : {β : Type} → Act F β → (β → Prog F (Option α)) → Prog F (Option α)
  | _, .loc m, k => .act (.loc m.recovered) (fun o =>
    match o with
    | none => .ret none
    | some b => k b)
  | _, .lookup a ns, k => .act (.lookup a ns) k
  | _, .slot i f, k => .act (.slot i f) k
  | _, .addSlot a ns m, k => .act (.addSlot a ns m) k
  | _, .names a, k => .act (.names a) k

/-- A handler of core/api/handler.go:50-134 as net/http runs it; `none` if the connection is closed without an answer. -/
def Prog.recovered {α : Type} : Prog F α → Prog F (Option α)
  | .ret a => .ret (some a)
  | .act a k => a.recovered (fun b => (k b).recovered)

/-- The goroutines of a service (cmd/service/service.go:12-52) as they are run: those of net/http (core/api/handler.go:25-27) recover. -/
def Spec.Job.served [GoFloat F] (env : Env) (fac : Factory F) : Job F → Prog F (Option (Outcome F))
  | .put addrs body => ((Job.put addrs body).prog env fac).recovered
  | .query addrs body => ((Job.query addrs body).prog env fac).recovered
  | j => do let o ← j.prog env fac; pure (some o)

end Trypo
