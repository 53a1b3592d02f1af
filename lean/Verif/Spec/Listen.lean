import Verif.Model.Listen

/-!
# Specification: what was visible of a node that was started and stopped
-/

namespace Trypo
open Listen

namespace Spec

/-- The connections accepted, in order. -/
def acceptedIn : List Event → List Nat := List.filterMap (fun e => match e with | .accepted n => some n | _ => none)
/-- The connections whose serving began, in order. -/
def servingIn : List Event → List Nat := List.filterMap (fun e => match e with | .serving n => some n | _ => none)
/-- `Accept` failed. -/
def Failed (es : List Event) : Prop := ∃ b, Event.acceptFailed b ∈ es

end Spec

end Trypo
