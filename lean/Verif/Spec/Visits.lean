import Verif.Spec.Jobs

/-!
# Which nodes a goroutine turns to

Every method of a server begins with a look into the table of its node (pkg/kmeans/rpc/rpc.go:135-146, 156-168). The looks are counted; a request
that got lost on its way to a node is not among them.
-/

namespace Trypo.Spec

variable {F : Type}

/-- The node whose table an action looks into. -/
def visited : {β : Type} → Act F β → Option Addr
  | _, .lookup a _ => some a
  | _, .names a => some a
  | _, _ => none

/-- The looks into tables in a concurrent run as in `Pool.run`, up to a panic if there is one: which goroutine, at which node. -/
def visits {α : Type} : List Nat → List (Prog F α) → World F → Nat → List (Nat × Addr)
  | [], _, _, _ => []
  | i :: is, ts, w, p =>
    match ts[i]? with
    | some (.act c k) =>
      (visited c).toList.map (fun a => (i, a)) ++
        match c.run w p with
        | .ok (r, p') => visits is (ts.set i (k r.1)) r.2 p'
        | .error _ => []
    | _ => visits is ts w p

end Trypo.Spec
