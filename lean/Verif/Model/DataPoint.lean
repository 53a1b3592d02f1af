import Verif.Model.Go

/-!
# pkg/kmeans/common/datapoint.go
-/

namespace Trypo

/-- pkg/kmeans/common/datapoint.go:6-11 `DataPoint`. `time.Time` is an integer instant (nanoseconds). -/
structure DataPoint (F : Type) where
  vec : List F
  payload : List UInt8
  expires : Int
  expireEnabled : Bool
  deriving DecidableEq, Repr

/-- The expiry condition of pkg/kmeans/common/datapoint.go:16 at the instant `now`: enabled and
`now.After(Expires)` (strict). -/
def DataPoint.expiredAt {F : Type} (now : Int) (dp : DataPoint F) : Bool :=
  dp.expireEnabled && decide (dp.expires < now)

/-- pkg/kmeans/common/datapoint.go:15-17 `Expired`. `tk` is the clock: the p-th read of `time.Now()` yields `tk p`.
Simplification: the clock position advances also when `ExpireEnabled` is false (Go does not read the clock then);
as `tk` is arbitrary this only adds unused readings. -/
def DataPoint.expired {F : Type} (tk : Nat → Int) (dp : DataPoint F) : Go Bool :=
  fun p => .ok (dp.expiredAt (tk p), p + 1)

@[simp] theorem DataPoint.wp_expired {F : Type} (tk : Nat → Int) (dp : DataPoint F) (Q : Bool → Nat → Prop) (p : Nat) :
    Go.wp (dp.expired tk) Q p ↔ Q (dp.expiredAt (tk p)) (p + 1) := Iff.rfl

end Trypo
