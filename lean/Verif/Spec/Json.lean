import Verif.Spec.Answers
import Verif.Model.F64
import Verif.Model.Core

/-!
# Specification: datapoints that an HTTP answer can carry
-/

namespace Trypo.Spec

/-- From the beginning of the year 0 to the end of the year 9999, in nanoseconds since 1970. -/
def FourDigitYear (t : Int) : Prop := -62167219200 * 10 ^ 9 ≤ t ∧ t < 253402300800 * 10 ^ 9

/-- A number: neither NaN nor infinite. -/
def IsNumber (x : F64) : Prop := ∃ neg k, x = .fin neg k

/-- JSON has a form for the datapoint: its components are numbers, and its expiry has a year of four digits (also if it never expires). -/
def Writable (d : Api.DP F64) : Prop := (∀ x ∈ d.vec, IsNumber x) ∧ FourDigitYear d.expires

/-- The body that goes with a status `n` when the datapoints `l` were found: all of them if the request was understood and every one is `Writable`; otherwise
there is no body. -/
def BodyFor (n : Nat) (l : List (Api.DP F64)) (body : Option (List (Api.DP F64))) : Prop :=
  n = 200 ∧ (∀ d ∈ l, Writable d) ∧ body = some l ∨ (n ≠ 200 ∨ ∃ d ∈ l, ¬ Writable d) ∧ body = none

end Trypo.Spec
