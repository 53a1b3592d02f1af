import Verif.Spec.NoPanic

/-!
# Specification: HTTP requests that cannot be answered
-/

namespace Trypo.Spec

variable {F : Type} [GoFloat F]

/-- An HTTP query for a negative number of datapoints. -/
def Job.negative : Job F → Prop
  | .query _ (some o) => o.n < 0
  | _ => False

/-- As `Job.counts`, but HTTP requests may be anything. -/
def Job.counts' : Job F → Prop
  | .query _ _ => True
  | j => j.counts

/-- Whatever the goroutine finds at each of its steps, it leaves all nodes as they are. -/
def OnlyReads {α : Type} : Prog F α → Prop
  | .ret _ => True
  | .act a k => ∀ w p r p', a.run w p = .ok (r, p') → r.2 = w ∧ OnlyReads (k r.1)

end Trypo.Spec
