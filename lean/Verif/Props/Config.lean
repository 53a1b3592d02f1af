import Verif.Props.Service

/-!
# Property C96: which configurations of the event loop can be run
-/

namespace Trypo
open GoFloat Spec EventLoop Service

section
variable {F : Type} [GoFloat F] [LawfulCmp F]

/-- C96, what holds: `EventLoop` takes every configuration there is. Whatever the addresses, the intervals, the ranges for splitting
and merging and the number for the internal distribution are (negative ones, ranges the wrong way round and an empty list of
addresses as well), nothing ever panics if the numbers of datapoints to distribute over the network are not negative and the
interval of `Meta` is not 0. -/
theorem C96_partial {env : Env} (he : EnvOK env) {fac : Factory F} (hf : FactoryOK fac) {D : NS → Nat} {w0 : World F} (hw : WorldOK D w0)
    {p0 : Nat} {nodes : List (Config × Nat × SkipConfig)}
    (hn : ∀ c fuel skip, (c, fuel, skip) ∈ nodes → 0 ≤ c.fastN ∧ 0 ≤ c.accurateN ∧ skip.getMeta ≠ 0)
    {es : List (Ev F)} (hv : ∀ j ∈ arrivals es, j.valid D) : ∃ s, Service.run env fac es (boot nodes w0 p0) = .ok s := by
  obtain ⟨s, h, _⟩ := C83_runs (p0 := p0) he hf hw (nodes := nodes) (fun n h => hn n.1 n.2.1 n.2.2 h) hv
  exact ⟨s, h⟩
end

namespace ConfigExample
open ServerExample JobsExample ServiceExample

/-- The event loop and the goroutines 0 to 15 in turn. -/
def laps (n : Nat) : List (Ev F64) := (List.replicate n (.loop 0 :: (List.range 16).map .run)).flatten

/-- What a service with one node, which holds two datapoints, comes to without any request. -/
def alone (c : Config) (skip : SkipConfig) (n : Nat) : Option Panic :=
  match Service.run env fac (laps n) (boot [(c, 10, skip)] lone 0) with
  | .ok _ => none
  | .error e => some e

end ConfigExample
open ConfigExample ServerExample JobsExample ServiceExample

/-- C96 fails: with a negative number of datapoints to distribute, or with interval 0 for `Meta`, a service crashes by itself. No request
has to arrive. -/
theorem C96_refuted :
    alone { single with fastN := -1 } always 120 = some .makeNeg ∧
    alone { single with accurateN := -1 } always 120 = some .makeNeg ∧
    alone single { always with getMeta := 0 } 120 = some .divZero :=
  ⟨by decide +kernel, by decide +kernel, by decide +kernel⟩

/-- C96: an internal distribution of a negative number of datapoints, ranges the wrong way round, intervals out of range, no addresses
and a node that is not in the network are harmless. -/
example : alone { single with internalN := -3, splitMin := 9, splitMax := -9, mergeMin := 5, mergeMax := -5 } ⟨-1, 0, 1, 1, 1, 1, 1, 1, -2⟩ 120 = none ∧
    alone { single with remotes := [] } always 120 = none ∧ alone { single with loc := 5 } always 120 = none :=
  ⟨by decide +kernel, by decide +kernel, by decide +kernel⟩

end Trypo
