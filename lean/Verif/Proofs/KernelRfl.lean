import Lean.Elab.Tactic

/-!
# Equations checked by the kernel alone

`decide +kernel` settles closed propositions. The tactic below does the same for an equation with variables whose two sides
compute to the same value: it gives the kernel the proof `Eq.refl` and leaves it to the kernel to compare the two sides; nothing
else is trusted.
-/

open Lean Elab Tactic in
/-- Closes `a = b` with `Eq.refl a`, which only the kernel checks. -/
elab "kernel_rfl" : tactic => do
  let g ← getMainGoal
  let t ← g.getType
  let some (_, lhs, _) := t.eq? | throwError "kernel_rfl: not an equation"
  g.assign (← Meta.mkEqRefl lhs)
