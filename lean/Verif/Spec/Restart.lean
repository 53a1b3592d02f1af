import Verif.Model.Restart
import Verif.Spec.EventLoop

/-!
# Specification: several event loops with the same configuration
-/

namespace Trypo.Spec
open EventLoop

/-- What the loop `i` did. -/
def eventsOf (i : Nat) (l : List (Nat × Event)) : List Event := l.filterMap (fun e => if e.1 = i then some e.2 else none)

/-- For each step of the loop `i`: whether a stop function was called before. -/
def stopSeen (i : Nat) : Bool → List SharedEv → List Bool
  | _, [] => []
  | b, .start :: es => stopSeen i b es
  | _, .stop _ :: es => stopSeen i true es
  | b, .step j :: es => if j = i then b :: stopSeen i b es else stopSeen i b es

/-- How many steps the loop `i` makes. -/
def stepsOf (i : Nat) (es : List SharedEv) : Nat := (es.filter (fun e => e = .step i)).length

end Trypo.Spec
