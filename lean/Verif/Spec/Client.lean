import Verif.Model.Server

/-!
# Specification: what a method of a client does
-/

namespace Trypo.Spec

variable {F : Type} [GoFloat F]

/-- The method `client` of a client of the node `a` is the method `server` of that node, behind the network. The request is
sent at tick `p`. If it does not get through, nothing happens and the answer is `zero`. If it does, the server's method runs
once. If its reply gets back, the answer is made from that reply (`none` is an error); otherwise the answer is `zero`,
although the method ran. -/
structure Remote {β γ : Type} (env : Env) (a : Addr) (client : Prog F γ) (server : Prog F (Option β)) (ans : β → γ) (zero : γ) : Prop where
  down : ∀ w p, env.up p a = false → client.run w p = .ok ((zero, w), p + 1)
  crash : ∀ w p e, env.up p a = true → server.run w (p + 1) = .error e → client.run w p = .error e
  reply : ∀ w p b w' p', env.up p a = true → server.run w (p + 1) = .ok ((some b, w'), p') → env.back p' a = true →
    client.run w p = .ok ((ans b, w'), p' + 1)
  failed : ∀ w p w' p', env.up p a = true → server.run w (p + 1) = .ok ((none, w'), p') → client.run w p = .ok ((zero, w'), p' + 1)
  lost : ∀ w p r w' p', env.up p a = true → server.run w (p + 1) = .ok ((r, w'), p') → env.back p' a = false →
    client.run w p = .ok ((zero, w'), p' + 1)

/-- Methods of a server that cannot fail. -/
def total {β : Type} (m : Prog F β) : Prog F (Option β) := do
  let b ← m
  pure (some b)

end Trypo.Spec
