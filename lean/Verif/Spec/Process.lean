import Verif.Model.Process

/-!
# Specification: starting a service
-/

namespace Trypo.Spec
open Process

/-- The order of the routes is any order there is. -/
def AnyOrder (es : List Ev) : Prop := ∀ cfg order, .call cfg order ∈ es → order.Perm [Route.put, Route.query]

/-- The call with number `i` is there and this far. -/
def Is (s : State) (i : Nat) (cfg : APIConfig) (pc : At) : Prop := ∃ order, s.calls[i]? = some ⟨cfg, order, pc⟩

/-- Somebody calls `Start` and waits until it has returned, has panicked or serves. -/
def startAndWait (cfg : APIConfig) (order : List Route) (s : State) : State :=
  State.run (.call cfg order :: List.replicate 5 (.step s.calls.length)) s

/-- Where the call is that was made last. -/
def lastCall (s : State) : Option At := s.calls.getLast?.map (fun c => c.pc)

end Trypo.Spec
