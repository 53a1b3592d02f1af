/-!
# pkg/arbiter/arbiter.go: the helpers on maps

The entries of a map are a list with distinct keys; iterating over the map visits them in any order. A nil pointer as
receiver (which panics) is not modelled. The rest of the package hands its arguments on to another module.
-/

namespace Trypo
namespace Arbiter

variable {A E S : Type}

/-- pkg/arbiter/arbiter.go:54-61 `CheckAll`: `empty` is `Addr{}`, `none` is nil; `entries` is the map in the order of the iteration. -/
def checkAll (empty : A) : List (A × Option E) → A × Option E
  | [] => (empty, none)
  | (a, err) :: entries =>
    match err with
    | some e => (a, some e)
    | none => checkAll empty entries

/-- pkg/arbiter/arbiter.go:64-71 `UniformStatus`. -/
def uniformStatus [DecidableEq S] (sc : S) : List (A × S) → Bool
  | [] => true
  | (_, status) :: entries => if status ≠ sc then false else uniformStatus sc entries

end Arbiter
end Trypo
