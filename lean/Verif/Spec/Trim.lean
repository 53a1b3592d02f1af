import Verif.Model.Centroid

/-!
# Specification: repeated `MemTrim`
-/

namespace Trypo.Spec

variable {F : Type} [GoFloat F]

/-- `MemTrim`, `k` times. -/
def trims (tk : Nat → Int) : Nat → Centroid F → Go (Centroid F)
  | 0, c => pure c
  | k + 1, c => do
    let c' ← c.memTrim tk
    trims tk k c'

end Trypo.Spec
