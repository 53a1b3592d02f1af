import Verif.Model.DataPoint

/-!
# Specification: expiry and conservation of datapoints

Only the datapoint record of the model is used.
-/

namespace Trypo.Spec

variable {F : Type}

/-- Expired at the instant `t`: expiry is enabled and its instant has passed. -/
def Dead (t : Int) (d : DataPoint F) : Prop := d.expireEnabled = true ∧ d.expires < t

instance (t : Int) (d : DataPoint F) : Decidable (Dead t d) := by unfold Dead; infer_instance

/-- A clock that never runs backwards. -/
def MonoClock (tk : Nat → Int) : Prop := ∀ p q, p ≤ q → tk p ≤ tk q

/-- The datapoints `before` went to `after` or were handed out in `out`, as bags; only datapoints expired at the
instant `t` may have disappeared, and nothing was duplicated or invented. -/
def Conserved (t : Int) (before after out : List (DataPoint F)) : Prop :=
  ∃ lost, (after ++ out ++ lost).Perm before ∧ ∀ d ∈ lost, Dead t d

/-- All datapoints are live at the instant `t`. -/
def AllLive (t : Int) (l : List (DataPoint F)) : Prop := ∀ d ∈ l, ¬ Dead t d

end Trypo.Spec

namespace Trypo.Spec

variable {F : Type}

/-- `after` is what an expiry scan running from instant `t` to instant `t'` leaves of `before`: order is kept, everything
still live at the end stays, everything already expired at the start goes. -/
structure Survivors (t t' : Int) (before after : List (DataPoint F)) : Prop where
  keeps : (before.filter (fun d => ¬ Dead t' d)).Sublist after
  drops : after.Sublist (before.filter (fun d => ¬ Dead t d))

end Trypo.Spec
